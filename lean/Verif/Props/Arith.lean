import Verif.Proof.Arith
/-!
# C44: saturating time arithmetic
-/
namespace Neco.Arith

/-- Specification: the representable value nearest to `x`. -/
def saturate (x : Int) : Int := max i64Min (min i64Max x)

/-- C44. For all 64-bit `a`, `b`, adding never overflows internally and gives the nearest
representable value to the exact sum. -/
theorem C44_add_clamp (a b : Int) (ha : InI64 a) (hb : InI64 b) :
    i64AddClamp a b = some (saturate (a + b)) := by
  unfold i64AddClamp
  have h := xorNeg_iff ha hb
  unfold InI64 at ha hb
  by_cases hx : xorNeg a b = true
  · have h' := h.1 hx
    simp only [hx, i64, InI64, saturate]
    have : i64Min ≤ a + b ∧ a + b ≤ i64Max := by
      unfold i64Min i64Max at *
      by_cases h1 : a < 0 <;> by_cases h2 : b < 0 <;> simp [h1, h2] at h' <;> omega
    simp [this]; unfold i64Min i64Max at *; omega
  · have h' : ¬ (decide (a < 0) ≠ decide (b < 0)) := fun c => hx (h.2 c)
    simp only [ne_eq, Decidable.not_not, decide_eq_decide] at h'
    have hx' : xorNeg a b = false := by simpa using hx
    simp only [hx', Bool.not_false, if_true]
    by_cases h1 : a > 0
    · rw [i64_some (x := i64Max - a) (by unfold InI64 i64Min i64Max at *; omega)]
      simp only [h1, if_true, Option.bind_eq_bind, Option.bind_some]
      split
      · simp [saturate]; unfold i64Min i64Max at *; omega
      · rw [i64_some (by unfold InI64 i64Min i64Max at *; omega)]
        simp [saturate]; unfold i64Min i64Max at *; omega
    · rw [i64_some (x := i64Min - a) (by unfold InI64 i64Min i64Max at *; omega)]
      simp only [h1, if_false, Option.bind_eq_bind, Option.bind_some]
      split
      · simp [saturate]; unfold i64Min i64Max at *; omega
      · rw [i64_some (by unfold InI64 i64Min i64Max at *; omega)]
        simp [saturate]; unfold i64Min i64Max at *; omega

example : InI64 i64Max ∧ InI64 1 ∧ i64AddClamp i64Max 1 = some i64Max := by decide
example : InI64 i64Min ∧ i64AddClamp i64Min i64Min = some i64Min := by decide
example : i64AddClamp (-5) 12 = some 7 := by decide

/-- C44. The time the scheduler sleeps when there is nothing to run is always defined and between
0 and 500 ms, whatever the deadlines, the (nonnegative) clock, pending signals or background jobs. -/
theorem C44_timeout_range (sched : Nat) (sig : Bool) (minDl : Option Int) (now : Int) (iow : Bool)
    (hn : InI64 now) (hpos : 0 ≤ now) (hd : ∀ d, minDl = some d → InI64 d) :
    ∃ t, pauseTimeout sched sig minDl now iow = some t ∧ 0 ≤ t ∧ t ≤ 500000000 := by
  have hneg : i64 (-now) = some (-now) := by
    unfold i64; rw [if_pos]; unfold InI64 i64Min i64Max at *; omega
  have hneg' : InI64 (-now) := by unfold InI64 i64Min i64Max at *; omega
  have hc : ∀ x, 0 ≤ clamp x 0 maxTimeout ∧ clamp x 0 maxTimeout ≤ 500000000 := by
    intro x; unfold clamp maxTimeout; split <;> (try split) <;> omega
  unfold pauseTimeout
  cases minDl with
  | none =>
    simp only [ite_self]
    cases iow <;> simp [hc]
  | some d =>
    have := C44_add_clamp d (-now) (hd d rfl) hneg'
    simp only [hneg, Option.bind_eq_bind, Option.bind_some, this]
    generalize (if (if maxTimeout > 0 ∧ sched > 0 then 0 else maxTimeout) > 0 ∧ sig = true then 0
      else if maxTimeout > 0 ∧ sched > 0 then 0 else maxTimeout) = t2
    by_cases h2 : t2 > 0 <;> cases iow <;> simp [h2, hc]

/-- C44. The scheduler never oversleeps a deadline: if the earliest deadline is `d` and nothing is
ready, it sleeps at most until `d` (and not at all if `d` has passed). -/
theorem C44_no_oversleep (sched : Nat) (sig : Bool) (d now t : Int) (iow : Bool)
    (hn : InI64 now) (hpos : 0 ≤ now) (hd : InI64 d)
    (ht : pauseTimeout sched sig (some d) now iow = some t) : t ≤ max 0 (d - now) := by
  have hneg : i64 (-now) = some (-now) := by
    unfold i64; rw [if_pos]; unfold InI64 i64Min i64Max at *; omega
  have hneg' : InI64 (-now) := by unfold InI64 i64Min i64Max at *; omega
  have ha := C44_add_clamp d (-now) hd hneg'
  have hs : saturate (d + -now) ≤ max 0 (d - now) := by
    unfold saturate InI64 i64Min i64Max at *; omega
  have hcl : ∀ x y : Int, 0 ≤ y → x ≤ y → clamp x 0 maxTimeout ≤ y := by
    intro x y h0 h1; unfold clamp maxTimeout; split <;> (try split) <;> omega
  have h0 : (0:Int) ≤ max 0 (d - now) := by omega
  unfold pauseTimeout at ht
  simp only [hneg, Option.bind_eq_bind, Option.bind_some, ha] at ht
  generalize (if (if maxTimeout > 0 ∧ sched > 0 then 0 else maxTimeout) > 0 ∧ sig = true then 0
    else if maxTimeout > 0 ∧ sched > 0 then 0 else maxTimeout) = t2 at ht
  by_cases h2 : t2 > 0
  · simp only [h2, if_true, Option.pure_def, Option.bind_some, Option.some.injEq] at ht
    subst ht
    split
    · omega
    · apply hcl _ _ h0
      split <;> omega
  · simp only [h2, if_false, Option.pure_def, Option.bind_some, Option.some.injEq] at ht
    subst ht
    split
    · omega
    · apply hcl _ _ h0; omega

example : pauseTimeout 0 false (some 1500) 1000 false = some 500 := by decide
example : pauseTimeout 0 false (some 1500) 2000 false = some 0 := by decide
example : pauseTimeout 0 false none 2000 false = some 500000000 := by decide

/-- C44. `neco_sleep(d)` with a nonnegative duration never computes a deadline in the past, and with a
negative one always does (unless the clock is at its lowest value). -/
theorem C44_sleep_deadline (now dur : Int) (hn : InI64 now) (hd : InI64 dur) :
    ∃ dl, sleepDeadline now dur = some dl ∧ (0 ≤ dur → now ≤ dl) ∧ (dur < 0 → i64Min < now → dl < now) := by
  refine ⟨_, C44_add_clamp now dur hn hd, ?_, ?_⟩ <;>
  · unfold saturate InI64 i64Min i64Max at *; omega

end Neco.Arith
