import Verif.Spec.Lock
/-!
# Wait groups and condition variables, read off the history
-/
namespace Neco.Rt
open Neco.Err

/-- the counter of wait group `w`: an add counts unless it would make the counter negative, a done counts unless the counter is zero -/
def wgCount (w : Nat) : List Ev → Int
  | [] => 0
  | .call _ (.wgAdd k d) :: l => if k = w ∧ 0 ≤ wgCount w l + d then wgCount w l + d else wgCount w l
  | .call _ (.wgDone k) :: l => if k = w ∧ wgCount w l ≠ 0 then wgCount w l - 1 else wgCount w l
  | _ :: l => wgCount w l

/-- no add with a negative delta brought the counter of `w` to zero -/
def NoZeroAdd (w : Nat) (l : List Ev) : Prop := ∀ a b k d, l = a ++ .call k (.wgAdd w d) :: b → d < 0 → wgCount w b + d ≠ 0

end Neco.Rt
