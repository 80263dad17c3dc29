import Verif.Model.Arith
namespace Neco.Arith

theorem xorNeg_iff {a b : Int} (ha : InI64 a) (hb : InI64 b) :
    xorNeg a b = true ↔ (decide (a < 0) ≠ decide (b < 0)) := by
  have key : ∀ x : Int, InI64 x → (BitVec.ofInt 64 x).msb = decide (x < 0) := by
    intro x hx
    rw [BitVec.msb_eq_toInt, BitVec.toInt_ofInt]
    have : x.bmod (2^64) = x := by
      unfold InI64 i64Min i64Max at hx
      apply Int.bmod_eq_of_le <;> omega
    rw [this]
  unfold xorNeg
  rw [decide_eq_true_iff, ← decide_eq_true_iff (p := _ < (0:Int)), ← BitVec.msb_eq_toInt, BitVec.msb_xor,
    key a ha, key b hb]
  cases decide (a < 0) <;> cases decide (b < 0) <;> simp

theorem i64_some {x : Int} (h : InI64 x) : i64 x = some x := by
  unfold i64; exact if_pos h

end Neco.Arith
