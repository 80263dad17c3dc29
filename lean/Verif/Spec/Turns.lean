import Verif.Spec.Owed
/-!
# Turns

What it takes to state how long a coroutine can be kept waiting.
-/
namespace Neco.Rt

/-- the coroutines that were given control from the ready queue so far, newest first: one per turn.
(A coroutine that starts another one hands control over without a turn.) -/
def turns (s : S) : List Nat := s.sco.hist

/-- the number of coroutines that are running, ready or blocked -/
def unfinished (s : S) : Nat :=
  s.sco.cur.toList.length + s.sco.runners.length + s.sco.yielders.length + s.sco.paused.length

/-- the number of coroutines started so far -/
def started (s : S) : Nat := (starts s.log).length

/-- the call `c` of `x` that was in progress in `s` is over in `t`: it returned, or `x` was terminated in it -/
def Over (x : Nat) (c : Call) (s t : S) : Prop :=
  ∃ es, t.log = es ++ s.log ∧ ((∃ v d, .ret x c v d ∈ es) ∨ ∃ b, .kill x b ∈ es)

/-- the calls that can wait for something -/
def canWait : Call → Bool
  | .sleep _ | .join _ _ | .suspend _ | .send _ _ _ | .genYield _ _ | .recv _ _ | .select _ _ | .lock _ _ | .rdlock _ _
  | .wgWait _ _ | .cvWait _ _ _ | .cancel _ _ | .sigWait _ | .wait _ _ _ | .work => true
  | _ => false

end Neco.Rt
