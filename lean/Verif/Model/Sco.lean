/-!
# The low-level coroutine scheduler (sco.c inside neco.c, lines 1815-2158)

Identifiers are natural numbers (`int64_t` in C; the counter is assumed not to wrap, which would take
2^63 starts).  The run queues are mathematical lists: that the intrusive links implement them is
`Verif.Props.Colist`; that the map of paused coroutines behaves as a set is `Verif.Props.Maps`.
The explicit counters of the code are kept, since every decision of `sco_switch` reads a counter.

`hist` and `done` are ghosts: the coroutines taken from the ready queue so far and the ones that
finished, newest first.  No decision reads them.
`bad` marks undefined behaviour (`sco_cur` dereferenced after popping an empty queue).

Not modelled: detach/attach (2095-2119, unused by neco).
-/
namespace Neco

/-- the thread-local variables of sco.c, neco.c 1908-1919 -/
structure Sco where
  /-- `sco_next_id`, 1919 -/
  nextId : Nat := 0
  /-- `sco_cur`, 1913; `none` is the main context -/
  cur : Option Nat := none
  /-- `sco_runners`, 1910 -/
  runners : List Nat := []
  /-- `sco_yielders`, 1912 -/
  yielders : List Nat := []
  /-- `sco_paused`, 1914 -/
  paused : List Nat := []
  /-- `sco_nrunners`, 1909 -/
  nrunners : Nat := 0
  /-- `sco_nyielders`, 1911 -/
  nyielders : Nat := 0
  /-- `sco_npaused`, 1915 -/
  npaused : Nat := 0
  /-- `sco_exit_to_main_requested`, 1916 -/
  exitReq : Bool := false
  /-- ghost: coroutines dispatched from the ready queue, newest first -/
  hist : List Nat := []
  /-- ghost: coroutines that finished, newest first -/
  done : List Nat := []
  /-- undefined behaviour happened -/
  bad : Bool := false
deriving DecidableEq, Repr

namespace Sco

/-- `sco_cur = sco_list_pop_front(&sco_runners); sco_nrunners--; llco_switch(sco_cur->llco)`,
neco.c 2000-2002 with 1959-1966 -/
def dispatch (s : Sco) : Sco :=
  match s.runners with
  | [] => { s with bad := true }
  | x :: r => { s with cur := some x, runners := r, nrunners := s.nrunners - 1, hist := x :: s.hist }

/-- `sco_return_to_main`, neco.c 1976-1980 -/
def toMain (s : Sco) : Sco := { s with cur := none, exitReq := false }

/-- the yielders become the runners, neco.c 1990-1998 -/
def promote (s : Sco) : Sco :=
  { s with runners := s.yielders, nrunners := s.nyielders, yielders := [], nyielders := 0 }

/-- `sco_switch(resumed_from_main, ..)`, neco.c 1982-2003 -/
def switch (s : Sco) (fromMain : Bool) : Sco :=
  if s.nrunners = 0 then
    if s.nyielders = 0 ∨ s.exitReq = true ∨ (fromMain = false ∧ s.npaused > 0) then s.toMain
    else s.promote.dispatch
  else s.dispatch

/-- `sco_start` + the head of `sco_entry`, neco.c 2005-2023, 2038-2049: the starter goes to the tail of
the runners, the new coroutine runs at once. -/
def start (s : Sco) : Sco :=
  let id := s.nextId + 1
  match s.cur with
  | some c => { s with nextId := id, runners := s.runners ++ [c], nrunners := s.nrunners + 1, cur := some id }
  | none => { s with nextId := id, cur := some id }

/-- end of `sco_entry`, neco.c 2025-2026: the coroutine is finished (the code leaves `sco_cur` to be
overwritten by `sco_switch`; here it is cleared at once) -/
def finish (s : Sco) : Sco := { s with done := s.cur.toList ++ s.done, cur := none }.switch false

/-- `sco_exit`, neco.c 2030-2035 -/
def exit (s : Sco) : Sco :=
  { s with done := s.cur.toList ++ s.done, cur := none, exitReq := true }.switch false

/-- `sco_yield`, neco.c 2057-2063 -/
def yield (s : Sco) : Sco :=
  match s.cur with
  | some c => { s with yielders := s.yielders ++ [c], nyielders := s.nyielders + 1 }.switch false
  | none => s

/-- `sco_pause`, neco.c 2066-2072 -/
def pause (s : Sco) : Sco :=
  match s.cur with
  | some c => { s with paused := c :: s.paused, npaused := s.npaused + 1 }.switch false
  | none => s

/-- the part of `sco_resume(id)` that makes the target ready, neco.c 2082-2088 -/
def wake (s : Sco) (id : Nat) : Sco :=
  { s with paused := s.paused.filter (· ≠ id), npaused := s.npaused - 1,
           yielders := s.yielders ++ [id], nyielders := s.nyielders + 1 }

/-- `sco_resume(id)` other than from main with 0, neco.c 2080-2091 -/
def resume (s : Sco) (id : Nat) : Sco :=
  if id ∈ s.paused then (s.wake id).yield else s

/-- `sco_resume(0)` from main, neco.c 2077-2079 -/
def resume0 (s : Sco) : Sco := s.switch true

/-- `sco_active`, neco.c 2155-2158 -/
def active (s : Sco) : Bool :=
  decide (s.nyielders + s.npaused + s.nrunners + (if s.cur.isSome then 1 else 0) > 0)

/-- what coroutines and the main loop do to the scheduler -/
inductive Op
  | start | yield | pause | resume (id : Nat) | finish | exit   -- by the running coroutine
  | mainStart                                                    -- the first coroutine, started from main
  | mainResume (id : Nat) | mainNext                             -- by the main loop
deriving DecidableEq, Repr

/-- whether an operation can be performed: coroutine operations need a running coroutine, main operations
need that none runs; the first start happens once -/
def Op.enabled (s : Sco) : Op → Prop
  | .start | .yield | .pause | .resume _ | .finish | .exit => s.cur.isSome
  | .mainStart => s.cur = none ∧ s.nextId = 0
  | .mainResume id => s.cur = none ∧ id ≠ 0
  | .mainNext => s.cur = none

instance (s : Sco) (o : Op) : Decidable (o.enabled s) := by
  cases o <;> simp only [Op.enabled] <;> infer_instance

def step (s : Sco) : Op → Sco
  | .start => s.start
  | .yield => s.yield
  | .pause => s.pause
  | .resume id => s.resume id
  | .finish => s.finish
  | .exit => s.exit
  | .mainStart => s.start
  | .mainResume id => s.resume id
  | .mainNext => s.resume0

/-- `Steps s ops s'`: from `s` the enabled operations `ops` lead to `s'` -/
inductive Steps : Sco → List Op → Sco → Prop
  | nil (s) : Steps s [] s
  | snoc {s ops s'} (h : Steps s ops s') (o : Op) (e : o.enabled s') : Steps s (ops ++ [o]) (s'.step o)

/-- states reachable from the start of the program -/
def Reach (s : Sco) : Prop := ∃ ops, Steps {} ops s

end Sco
end Neco
