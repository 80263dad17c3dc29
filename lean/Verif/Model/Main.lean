/-!
# The end of a program written with `neco_main`

`neco_main` (neco.h 427-440) makes `main` start a coroutine that runs the program's main function; when that
returns, the code is kept in two variables of the thread and the coroutine exits (neco.c 3787-3794); the
function that is called after a coroutine has ended looks at them and ends the process (3803-3809).

Modelled: the coroutines of any number of threads, by when they begin and end; what is printed with stdio and
has been written.  Simplified: everything else the coroutines do.  `_Exit` does not write what stdio has
buffered (POSIX `_exit`), a return from `main` does (C11 5.1.2.2.3).
-/
namespace Neco.Main

/-- What happened, newest first. -/
inductive Ev
  | returned (c : Int)       -- the main function returned `c`
  | quit                     -- the main coroutine was terminated: neco_exit or a cancel
  | began (t j : Nat)        -- coroutine `j` began in thread `t`
  | ended (t j : Nat)        -- it ended: control has left its stack for good
  | print (m : Nat)          -- something was printed with stdio
  | broken                   -- neco_write found standard output or error to be a broken pipe
  | status (x : Int)         -- the process ended with this status
deriving DecidableEq, Repr

instance {l : List (Nat × Nat)} : Decidable (∃ k, (0, k) ∈ l) :=
  decidable_of_iff (l.any (fun p => p.1 == 0) = true) (by
    simp only [List.any_eq_true, beq_iff_eq]
    exact ⟨fun ⟨⟨a, b⟩, h, e⟩ => ⟨b, by dsimp only at e; subst e; exact h⟩, fun ⟨k, h⟩ => ⟨_, h, rfl⟩⟩)

inductive Main | running | leaving
deriving DecidableEq, Repr

structure S where
  live : List (Nat × Nat) := [(0, 1)]
  main : Main := .running
  flag : Nat → Option Int := fun _ => none    -- immediate_exit, immediate_exit_code: one pair per thread
  over : Bool := false
  buf : List Nat := []
  out : List Nat := []
  log : List Ev := [.began 0 1]

inductive Op
  | start (t j : Nat)      -- a coroutine is started in thread `t` (a new one if nothing runs there)
  | print (m : Nat) | flush
  | ret (c : Int) | quit
  | finish (t j : Nat)
  | leave                  -- neco_start returns to main
  | broken
deriving DecidableEq, Repr

/-- `cleanup` (neco.c 3803-3816), called when coroutine `j` of thread `t` has ended. -/
def cleanup (s : S) (t j : Nat) : S :=
  let s := { s with live := s.live.erase (t, j), log := .ended t j :: s.log }
  match s.flag t with
  | some c => { s with over := true, log := .status c :: s.log }
  | none => s

/-- One step; `none`: it cannot happen. -/
def step (o : Op) (s : S) : Option S :=
  if s.over then none else
  match o with
  | .start t j =>
    if Ev.began t j ∈ s.log ∨ (t = 0 ∧ ¬ ∃ k, (0, k) ∈ s.live) then none
    else some { s with live := (t, j) :: s.live, log := .began t j :: s.log }
  | .print m => some { s with buf := s.buf ++ [m], log := .print m :: s.log }
  | .flush => some { s with buf := [], out := s.out ++ s.buf }
  -- neco.h 431, `__neco_exit_prog`, neco.c 3790-3794
  | .ret c =>
    if s.main = .running then
      some { s with main := .leaving, flag := fun t => if t = 0 then some c else s.flag t, log := .returned c :: s.log }
    else none
  -- neco_exit (neco.c 8461-8465) or a cancel in the main function
  | .quit => if s.main = .running then some { s with main := .leaving, log := .quit :: s.log } else none
  | .finish t j =>
    if (t, j) ∈ s.live ∧ ((t, j) = (0, 1) → s.main = .leaving) then some (cleanup s t j) else none
  -- neco.h 436-438: the scheduler of thread 0 has no coroutine left; exit() writes what is buffered
  | .leave =>
    if ∃ k, (0, k) ∈ s.live then none
    else some { s with over := true, buf := [], out := s.out ++ s.buf, log := .status (-1) :: s.log }
  -- `write1`, neco.c 5177-5185: 128 + EPIPE
  | .broken => some { s with over := true, log := .status 160 :: .broken :: s.log }

def init : S := {}

/-- Every execution. -/
inductive Reach : S → Prop
  | init : Reach init
  | step {s s' : S} (o : Op) (r : Reach s) (h : step o s = some s') : Reach s'

def run : List Op → S → Option S
  | [], s => some s
  | o :: os, s => (step o s).bind (run os)

end Neco.Main
