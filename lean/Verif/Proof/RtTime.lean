import Verif.Model.RtTime
import Verif.Props.Arith
import Verif.Props.RtDl
import Verif.Props.RtSig
import Verif.Props.RtStats
import Verif.Proof.RtPool
/-!
# The time-out of the main loop (for C75)
-/
namespace Neco.Arith

/-- until the earliest deadline, but at most 500 ms -/
def upTo (minDl : Option Int) (now : Int) : Int := match minDl with | some d => max 0 (min 500000000 (d - now)) | none => 500000000

theorem pauseTimeout_eq (sched : Nat) (sig : Bool) (minDl : Option Int) (now : Int) (iow : Bool)
    (hn : InI64 now) (hpos : 0 ≤ now) (hd : ∀ d, sched = 0 → sig = false → minDl = some d → InI64 d) :
    pauseTimeout sched sig minDl now iow = some (if 0 < sched ∨ sig = true ∨ iow = true then 0 else upTo minDl now) := by
  have hneg : i64 (-now) = some (-now) := by
    unfold i64; rw [if_pos]; unfold InI64 i64Min i64Max at *; omega
  have hneg' : InI64 (-now) := by unfold InI64 i64Min i64Max at *; omega
  unfold pauseTimeout upTo
  by_cases h1 : 0 < sched
  · simp [h1, maxTimeout, clamp]
  · have h1' : sched = 0 := by omega
    subst h1'
    cases sig with
    | true => simp [maxTimeout, clamp]
    | false =>
      cases minDl with
      | none => cases iow <;> simp [maxTimeout, clamp]
      | some d =>
        have hd' := hd d rfl rfl rfl
        have := C44_add_clamp d (-now) hd' hneg'
        simp only [hneg, Option.bind_eq_bind, Option.bind_some, this]
        cases iow
        · simp [maxTimeout]
          unfold clamp saturate InI64 i64Min i64Max at *
          (repeat' split) <;> omega
        · simp [maxTimeout]

end Neco.Arith

namespace Neco.Rt
open Neco.Err

/-- the times fit the 64-bit integers of the interface -/
def Times (s : S) : Prop := s.clock ≤ MAX ∧ ∀ j dl, due s j dl → -MAX - 1 ≤ dl

theorem clock_pos {ok} {s : S} (r : Reach ok s) : 0 ≤ s.clock := by
  induction r with
  | init a e => simp [init]
  | @step s s' r a hok hs ih => exact Int.le_trans ih (step_clock hs).1

theorem idle_where {ok} {s : S} (r : Reach ok s) (hc : s.sco.cur = none) (h : ∀ j, ¬ Ready s j) {j : Nat} (h1 : 1 ≤ j) (h2 : j ≤ s.sco.nextId) (hp : (s.co j).pc ≠ .dead) : Blocked s j := by
  have hw := reach_scoWF r
  have hm : j ∈ s.sco.everybody := hw.perm.mem_iff.2 (by rw [List.mem_range'_1]; omega)
  simp only [Sco.everybody, hc, Option.toList_none, List.nil_append, List.mem_append] at hm
  rcases hm with ((hm | hm) | hm) | hm
  · exact absurd (.inl hm) (h j)
  · exact absurd (.inr hm) (h j)
  · exact hm
  · exact absurd (((reach_invD r).dd j).1 hm) hp

theorem nyield_pos {ok} {s : S} (r : Reach ok s) (hc : s.sco.cur = none) : 0 < s.sco.nyielders ↔ ∃ j, Ready s j := by
  have hw := reach_scoWF r
  rw [hw.ny, List.length_pos_iff_exists_mem]
  constructor
  · rintro ⟨j, h⟩; exact ⟨j, .inr h⟩
  · rintro ⟨j, h | h⟩
    · rw [hw.main hc] at h; cases h
    · exact ⟨j, h⟩

/-- who is in `neco_work` -/
theorem io_pos {ok} {s : S} (r : Reach ok s) (hf : s.fault = false) (hc : s.sco.cur = none) :
    0 < s.niowaiters → (∃ j, Ready s j) ∨ ∃ j, Blocked s j ∧ pending j s.log = some .work := by
  intro h
  have h1 := stat_waiting r hf .io
  have h1 : s.niowaiters = waiting s .io := h1
  rw [h1] at h
  unfold waiting at h
  obtain ⟨j, hj, hk⟩ := List.countP_pos_iff.1 (by omega : 0 < (List.range (s.sco.nextId + 1)).countP (fun i => inWait s i && kindOf s i == some .io))
  rw [Bool.and_eq_true, beq_iff_eq] at hk
  obtain ⟨hw, hk⟩ := hk
  have hp : pending j s.log = some .work := by
    unfold kindOf at hk
    split at hk
    · cases hk
    · cases hq : pending j s.log with
      | none => rw [hq] at hk; cases hk
      | some c => rw [hq] at hk; cases c <;> first | rfl | cases hk
  by_cases hr : ∃ j, Ready s j
  · exact .inl hr
  · have hid := call_id r (pending_mem hp)
    refine .inr ⟨j, idle_where r hc (fun k hk => hr ⟨k, hk⟩) hid.1 hid.2 ?_, hp⟩
    intro e; unfold inWait at hw; rw [e] at hw; cases hw

theorem io_pos' {s : S} (r : Reach any s) (hf : s.fault = false) {j : Nat} (hb : Blocked s j) (hp : pending j s.log = some .work) : 0 < s.niowaiters := by
  have h1 : s.niowaiters = waiting s .io := stat_waiting r hf .io
  obtain ⟨hw, h2, h3⟩ := C33_blocked r hb
  have hk : kindOf s j = some .io := by
    unfold kindOf
    rw [if_neg, hp]
    · rfl
    · intro e
      obtain ⟨dl, h, _⟩ := ((reach_invF r).cf j).bc _ e
      have := ((pending_call r).mp hp).1
      rw [this] at h; obtain ⟨⟨_, _, _, h⟩, _⟩ := h; cases h
  rw [h1]
  have : 0 < waiting s .io := List.countP_pos_iff.2 ⟨j, by simp; omega, by simp [hw, hk]⟩
  omega

/-- the earliest deadline -/
theorem firstDl_due {s : S} (r : Reach any s) (hf : s.fault = false) (hc : s.sco.cur = none) (hr : ∀ j, ¬ Ready s j) {d : Int} (h : firstDl s = some d) :
    (∃ j, due s j d) ∧ ∀ j dl, due s j dl → d ≤ dl := by
  unfold firstDl at h
  have hs := reach_sorted r
  cases hq : s.dlq with
  | nil => rw [hq] at h; cases h
  | cons i q =>
    rw [hq] at h hs; simp at h; subst h
    have hi : i ∈ s.dlq := by rw [hq]; simp
    have hF := (reach_invF r)
    have hpz := ((hF.cf i).dq.1 hi).1
    have hbk := (hF.cf i).pb hpz
    have hb : Blocked s i := by
      refine idle_where r hc hr ?_ ?_ ?_
      · obtain ⟨b, hb⟩ : ∃ b, (s.co i).pc = .blk b := by cases hp : (s.co i).pc <;> rw [hp] at hbk <;> first | exact ⟨_, rfl⟩ | cases hbk
        obtain ⟨dl', h1, h2⟩ := (hF.cf i).bc b hb
        have := (pending_call r (i := i) (c := (s.co i).call)).mpr ⟨rfl, h1.call_ne.1⟩
        exact (call_id r (pending_mem this)).1
      · refine Classical.byContradiction fun hlt => ?_
        rw [hF.fresh i (by omega)] at hbk; cases hbk
      · intro e; rw [e] at hbk; cases hbk
    refine ⟨⟨i, (due_iff r hf i _).2 ⟨hb, hi, rfl⟩⟩, ?_⟩
    intro j dl hj
    obtain ⟨_, h2, h3⟩ := (due_iff r hf j dl).1 hj
    rw [hq] at h2
    rcases List.mem_cons.1 h2 with h | h
    · subst h; omega
    · have := (List.pairwise_cons.1 hs).1 j h
      unfold dlLt at this; omega

theorem firstDl_none {s : S} (r : Reach any s) (hf : s.fault = false) (h : firstDl s = none) (j : Nat) (dl : Int) : ¬ due s j dl := by
  intro hj
  obtain ⟨_, h2, _⟩ := (due_iff r hf j dl).1 hj
  unfold firstDl at h
  cases hq : s.dlq with
  | nil => rw [hq] at h2; cases h2
  | cons i q => rw [hq] at h; cases h

/-- the time-out, spelled out -/
theorem timeout_eq {s : S} (r : Reach any s) (hf : s.fault = false) (hc : s.sco.cur = none) (ht : Times s) :
    timeout s = some (if 0 < s.sco.nyielders ∨ sigPending s = true ∨ decide (s.niowaiters > 0) = true then 0 else Arith.upTo (firstDl s) s.clock) := by
  have h0 := clock_pos r
  refine Arith.pauseTimeout_eq _ _ _ _ _ ⟨by unfold Arith.i64Min; omega, ?_⟩ h0 ?_
  · have := ht.1; unfold MAX at this; unfold Arith.i64Max; omega
  · intro d h1 _ h2
    have hr : ∀ j, ¬ Ready s j := fun j hj => by have := (nyield_pos r hc).2 ⟨j, hj⟩; omega
    obtain ⟨⟨j, hj⟩, _⟩ := firstDl_due r hf hc hr h2
    have := ht.2 j d hj
    have := hj.2.2.2
    unfold MAX at *; unfold Arith.InI64 Arith.i64Min Arith.i64Max; omega

theorem kernelWait_le {s : S} {t : Int} (h : timeout s = some t) (h0 : 0 ≤ t) : ∃ w, kernelWait s = some w ∧ 0 ≤ w ∧ w ≤ t ∧ t - 1000000 < w := by
  refine ⟨if s.nevwaiters > 0 then t / 1000000 * 1000000 else t, by unfold kernelWait; rw [h]; simp, ?_⟩
  split <;> omega

end Neco.Rt
