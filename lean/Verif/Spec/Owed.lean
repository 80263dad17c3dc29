import Verif.Spec.Cancel
/-!
# Cancelations that have not been reported yet
-/
namespace Neco.Rt
open Neco.Err

/-- `i` is inside `neco_cond_wait` -/
def inCond (i : Nat) (l : List Ev) : Bool :=
  match pending i l with
  | some (.cvWait _ _ _) => true
  | _ => false

/-- `i` was canceled and no operation has returned `NECO_CANCELED` to it since, nor was it terminated -/
def owed (i : Nat) : List Ev → Bool
  | [] => false
  | .cancel _ t :: l => t == i || owed i l
  | .ret k _ v _ :: l => !(k == i && v == CANCELED) && owed i l
  | .kill k _ :: l => !(k == i) && owed i l
  | .start _ k :: l => !(k == i) && owed i l
  | _ :: l => owed i l

/-- the same, not counting a cancelation that arrives while `i` is inside `neco_cond_wait` -/
def owedQ (i : Nat) : List Ev → Bool
  | [] => false
  | .cancel _ t :: l => (t == i && !inCond i l) || owedQ i l
  | .ret k _ v _ :: l => !(k == i && v == CANCELED) && owedQ i l
  | .kill k _ :: l => !(k == i) && owedQ i l
  | .start _ k :: l => !(k == i) && owedQ i l
  | _ :: l => owedQ i l

/-- the result an operation returns before it looks for a cancelation: the deadline of a sleep has passed, there is
nobody to join, the channel is closed, the caller is not a generator, there is no coroutine to cancel, or no signal is
watched -/
def early : Call → Int → Prop
  | .sleep _, v => v = TIMEDOUT
  | .join _ _, v => v = OK
  | .send _ _ _, v | .recv _ _, v => v = CLOSED
  | .genYield _ _, v => v = CLOSED ∨ v = NOTGENERATOR
  | .cancel _ _, v => v = NOTFOUND
  | .sigWait _, v => v = NOSIGWATCH
  | _, _ => False

/-- `t` is `s` or comes after it in an execution -/
inductive Later (s : S) : S → Prop
  | refl : Later s s
  | step {t u : S} {a : Act} (h : Later s t) (hs : Rt.step t a = some u) : Later s u

end Neco.Rt
