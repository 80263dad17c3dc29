import Verif.Spec.Rt
/-!
# The statistics, read off the state of each coroutine
-/
namespace Neco.Rt

/-- the kinds of waiting that `neco_getstats` counts; `io` is waiting for background work, which it does not report -/
inductive Wk | sleep | ev | sig | send | recv | lock | wg | cond | susp | io
deriving DecidableEq, Repr

/-- the kind of waiting that goes on at a blocking point; joining and waiting to cancel are not counted -/
def Blk.wk : Blk → Option Wk
  | .sleep => some .sleep | .wait => some .ev | .sig => some .sig | .send => some .send | .recv | .sel => some .recv
  | .lock _ | .relock => some .lock | .wg => some .wg | .cond => some .cond | .susp => some .susp
  | .join | .cancel => none

/-- what a coroutine waits for: it is inside a blocking operation and has not run since it blocked -/
def Pc.wk : Pc → Option Wk
  | .blk b => b.wk
  | .workTry | .workWait => some .io
  | _ => none

/-- the counter for a kind of waiting in the answer of `neco_getstats` (and the internal one for background work) -/
def statOf (s : S) : Wk → Int
  | .sleep => (getStats s).sleepers | .ev => (getStats s).evwaiters | .sig => (getStats s).sigwaiters
  | .send => (getStats s).senders | .recv => (getStats s).receivers | .lock => (getStats s).locked
  | .wg => (getStats s).waitgroupers | .cond => (getStats s).condwaiters | .susp => (getStats s).suspended
  | .io => s.niowaiters

/-- the kind of waiting a call may do -/
def Call.wk : Call → Option Wk
  | .sleep _ => some .sleep | .wait _ _ _ => some .ev | .sigWait _ => some .sig | .send _ _ _ | .genYield _ _ => some .send
  | .recv _ _ | .select _ _ => some .recv | .lock _ _ | .rdlock _ _ => some .lock | .wgWait _ _ => some .wg
  | .cvWait _ _ _ => some .cond | .suspend _ => some .susp | .work => some .io | _ => Option.none

/-- the kind of waiting of coroutine `i`: given by the call it is in, except that `neco_cond_wait` waits for the mutex at the end -/
def kindOf (s : S) (i : Nat) : Option Wk := if (s.co i).pc = .blk .relock then some .lock else (pending i s.log).bind Call.wk

/-- coroutine `i` is at the point of its call where it blocks, and has not run since -/
def inWait (s : S) (i : Nat) : Bool :=
  match (s.co i).pc with
  | .blk _ | .workTry | .workWait => true
  | _ => false

/-- how many coroutines wait in this way -/
def waiting (s : S) (k : Wk) : Nat := (List.range (s.sco.nextId + 1)).countP (fun i => inWait s i && kindOf s i == some k)

/-- the coroutines that have gone through the end of a coroutine (`.exit`), latest first -/
def exits : List Ev → List Nat
  | [] => []
  | .exit i :: l => i :: exits l
  | _ :: l => exits l

/-- no coroutine was terminated by a cancelation after it had already gone through its end -/
def EndsOnce : List Ev → Prop
  | [] => True
  | .kill i _ :: l => .exit i ∉ l ∧ EndsOnce l
  | _ :: l => EndsOnce l

end Neco.Rt
