/-!
# The queue of signals, between the signal handler and the main loop

`sigallowhandler` (neco.c 3920-3933) and `rt_sched_signal_step` (4040-4074) share `rt->sigmask` and `rt->sigqueue[]`, which are plain
variables. A handler runs on the thread of the runtime, at any moment, to its end; while it runs, handlers of other signals may interrupt it, as
`sa_mask` is empty (3989). Here every read and every write of the shared variables is a step, and a signal may arrive between any two of them.

Simplifications: the signals are watched throughout (that an unwatched signal ends the process is in Rt); whether a coroutine waits for the signal
is up to the environment, who chooses when the main loop takes one; the search for a nonempty queue may stop at any of them, not only at the lowest.
-/
namespace Neco.Sigq

/-- where a handler is: `rt->sigmask |= bit` (neco.c 3931) reads and writes, then so does `rt->sigqueue[signo]++` (3932) -/
inductive HPc
  | ldMask
  | stMask (w : Nat → Bool)
  | ldQ
  | stQ (v : Nat)

/-- a running handler and its signal -/
structure Frame where
  n : Nat
  pc : HPc

/-- where the main loop is, having picked a signal: `rt->sigqueue[signo]--` (neco.c 4046, 4062) reads and writes, then the test `== 0` (4047, 4063),
then `rt->sigmask &= ~bit` (4048, 4064) reads and writes -/
inductive MPc
  | idle
  | ldQ (n : Nat)
  | stQ (n v : Nat)
  | tst (n : Nat)
  | ldMask (n : Nat)
  | stMask (n : Nat) (w : Nat → Bool)

structure S where
  /-- `rt->sigqueue` (neco.c 3612) -/
  q : Nat → Nat := fun _ => 0
  /-- `rt->sigmask` (neco.c 3609), bit by bit -/
  mask : Nat → Bool := fun _ => false
  main : MPc := .idle
  /-- the handlers that are running, the innermost first -/
  frames : List Frame := []
  /-- how often each signal has arrived -/
  arr : Nat → Nat := fun _ => 0
  /-- how often each signal has been taken out by the main loop, for a coroutine -/
  tak : Nat → Nat := fun _ => 0

/-- what can happen -/
inductive Act
  /-- signal `n` arrives: its handler starts -/
  | sig (n : Nat)
  /-- the innermost handler makes a step, or the main loop when no handler runs -/
  | run
  /-- the main loop, having seen a nonzero mask (neco.c 4223), finds signal `n` queued and somebody waiting for it (4042, 4057) -/
  | look (n : Nat)

def set {α : Type} (f : Nat → α) (n : Nat) (v : α) : Nat → α := fun k => if k = n then v else f k

/-- a step of the innermost handler, neco.c 3931-3932 -/
def stepH (s : S) (f : Frame) (r : List Frame) : S :=
  match f.pc with
  | .ldMask => { s with frames := ⟨f.n, .stMask s.mask⟩ :: r }
  | .stMask w => { s with mask := set w f.n true, frames := ⟨f.n, .ldQ⟩ :: r }
  | .ldQ => { s with frames := ⟨f.n, .stQ (s.q f.n)⟩ :: r }
  | .stQ v => { s with q := set s.q f.n (v + 1), frames := r }

/-- a step of the main loop, neco.c 4046-4049, 4062-4065 -/
def stepM (s : S) : Option S :=
  match s.main with
  | .idle => none
  | .ldQ n => some { s with main := .stQ n (s.q n) }
  | .stQ n v => some { s with q := set s.q n (v - 1), tak := set s.tak n (s.tak n + 1), main := .tst n }
  | .tst n => some { s with main := if s.q n = 0 then .ldMask n else .idle }
  | .ldMask n => some { s with main := .stMask n s.mask }
  | .stMask n w => some { s with mask := set w n false, main := .idle }

/-- one step; `none` when it is not possible -/
def step (s : S) : Act → Option S
  | .sig n => if n < 32 ∧ ∀ f ∈ s.frames, f.n ≠ n then some { s with frames := ⟨n, .ldMask⟩ :: s.frames, arr := set s.arr n (s.arr n + 1) } else none
  | .run => match s.frames with
    | f :: r => some (stepH s f r)
    | [] => stepM s
  | .look n =>
    match s.main, s.frames with
    | .idle, [] => if (List.range 32).any s.mask = true ∧ n < 32 ∧ s.q n ≠ 0 then some { s with main := .ldQ n } else none
    | _, _ => none

/-- execute a list of actions -/
def run (s : S) : List Act → Option S
  | [] => some s
  | a :: as => match step s a with | some t => run t as | none => none

/-- the states reachable when every action satisfies `ok` in the state it is taken -/
inductive Reach (ok : S → Act → Prop) : S → Prop
  | init : Reach ok {}
  | step {s s'} (h : Reach ok s) (a : Act) (hok : ok s a) (hs : step s a = some s') : Reach ok s'

theorem Reach.mono {ok ok' : S → Act → Prop} (h : ∀ s a, ok s a → ok' s a) {s : S} (r : Reach ok s) : Reach ok' s := by
  induction r with
  | init => exact .init
  | step _ a hok hs ih => exact ih.step a (h _ _ hok) hs

end Neco.Sigq
