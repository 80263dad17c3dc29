import Verif.Spec.Rt
/-!
# Coroutines for which no wake-up is ever left over

The theorems for `Fresh i s` ask that no wake-up of `i` was left over when it made its call.  Here is a
condition that ensures it and that only speaks about the calls made and the cancelations: `Good`.  It
asks nothing of the coroutines that run beside `i`.
-/
namespace Neco.Rt
open Neco.Err

/-- not a `neco_cancel` or a `neco_chan_select` with a deadline (`MAX` = `INT64_MAX` means none) -/
def plainCall (c : Call) : Prop := (∀ id dl, c = .cancel id dl → MAX ≤ dl) ∧ ∀ cs dl, c = .select cs dl → MAX ≤ dl

/-- nobody ever canceled `i`, and `i` gave no deadline to `neco_cancel` or `neco_chan_select` -/
def Plain (i : Nat) (l : List Ev) : Prop := (∀ k, .cancel k i ∉ l) ∧ ∀ c, .call i c ∈ l → plainCall c

/-- `k` had ended when `i` was started (so `i` may reuse its control block) -/
def EndedBefore (k i : Nat) (l : List Ev) : Prop := ∃ a b p, l = a ++ .start p i :: b ∧ .exit k ∈ b

/-- `i` is such a coroutine, and so was every coroutine that had ended when `i` was started -/
def Good (i : Nat) (l : List Ev) : Prop := Plain i l ∧ ∀ k, EndedBefore k i l → Plain k l

/-- not `neco_cancel`, and not a `neco_chan_select` with a deadline -/
def tameCall (c : Call) : Prop := (∀ id dl, c ≠ .cancel id dl) ∧ ∀ cs dl, c = .select cs dl → MAX ≤ dl

/-- the program only makes such calls -/
def Tame (_ : S) (a : Act) : Prop := ∀ c, a = .call c → tameCall c

end Neco.Rt
