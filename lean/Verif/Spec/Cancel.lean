import Verif.Spec.Sync
/-!
# Cancelation and cleanup, read off the history
-/
namespace Neco.Rt
open Neco.Err

/-- an event that reports a cancelation to coroutine `i`: an operation returned `NECO_CANCELED`, or the coroutine was terminated instead of that -/
def reportsCancel (i : Nat) : Ev → Bool
  | .ret k _ v _ => k == i && v == CANCELED
  | .kill k y => k == i && !y
  | _ => false
/-- an event that cancels coroutine `i` -/
def cancels (i : Nat) : Ev → Bool
  | .cancel _ t => t == i
  | _ => false
/-- how many cancelations were reported to `i` -/
def reported (i : Nat) (l : List Ev) : Nat := l.countP (reportsCancel i)
/-- how many times `i` was canceled -/
def canceledTimes (i : Nat) (l : List Ev) : Nat := l.countP (cancels i)

/-- no coroutine is started in a control block that still carries the cancelation of the coroutine that used it before -/
def Unflagged (s : S) (a : Act) : Prop := a = .call .start ∨ a = .call .genStart → ∀ p, s.pool.head? = some p → p.1.canceled = false

/-- the cancel state of coroutine `i` after the history `l`: the last one it set, or the default `env` -/
def cancelOn (env : Bool) (i : Nat) : List Ev → Bool
  | [] => env
  | .call k (.setState e) :: l => if k = i then e else cancelOn env i l
  | _ :: l => cancelOn env i l

/-- coroutine `i` called `neco_exit` or was terminated by a cancelation -/
def endsBy (i : Nat) : Ev → Bool
  | .call k .exit => k == i
  | .kill k _ => k == i
  | _ => false
def dying (i : Nat) (l : List Ev) : Bool := l.any (endsBy i)
/-- the handlers `i` pushed and did not pop, the newest first -/
def handlers (i : Nat) : List Ev → List Nat
  | [] => []
  | .call k (.cpush h) :: l => if k = i then h :: handlers i l else handlers i l
  | .call k (.cpop _) :: l => if k = i then (handlers i l).tail else handlers i l
  | _ :: l => handlers i l
/-- the handlers of `i` that were run after its `neco_exit` or cancelation, the first one first -/
def ran (i : Nat) : List Ev → List Nat
  | [] => []
  | .clean k h :: l => if k = i ∧ dying i l = true then ran i l ++ [h] else ran i l
  | _ :: l => ran i l
/-- every coroutine whose function returned had popped its handlers -/
def Paired (l : List Ev) : Prop := ∀ x b i, l = x ++ .exit i :: b → dying i b = false → handlers i b = []

end Neco.Rt
