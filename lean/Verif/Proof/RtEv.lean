import Verif.Proof.RtStats
/-!
# Descriptor events: who is woken, what is armed
-/
namespace Neco.Rt
open Neco.Err

/-- the directions an event reports: `w = true` is writable -/
def evDir (e : Nat × Bool × Bool) (w : Bool) : Bool := if w = true then e.2.2 else e.2.1

theorem mem_mEvent {s : S} {e : Nat × Bool × Bool} {j : Nat} :
    j ∈ (mEvent s e).sco.paused ↔ j ∈ s.sco.paused ∧ ¬ ∃ w, (e.1, w, j) ∈ s.evw ∧ evDir e w = true := by
  unfold mEvent
  simp only [mem_wakeAll]
  refine and_congr Iff.rfl (not_congr ?_)
  rw [List.mem_append]
  constructor
  · rintro (h | h)
    · split at h
      · rename_i hd
        simp only [List.mem_map, List.mem_filter, Bool.and_eq_true, beq_iff_eq] at h
        obtain ⟨⟨a, b, c⟩, ⟨h1, h2, h3⟩, h4⟩ := h
        simp only at h2 h3 h4; subst h2; subst h3; subst h4
        exact ⟨false, h1, by simp [evDir, hd]⟩
      · cases h
    · split at h
      · rename_i hd
        simp only [List.mem_map, List.mem_filter, Bool.and_eq_true, beq_iff_eq] at h
        obtain ⟨⟨a, b, c⟩, ⟨h1, h2, h3⟩, h4⟩ := h
        simp only at h2 h3 h4; subst h2; subst h3; subst h4
        exact ⟨true, h1, by simp [evDir, hd]⟩
      · cases h
  · rintro ⟨w, h1, h2⟩
    cases w
    · left
      rw [if_pos (by simpa [evDir] using h2)]
      simp only [List.mem_map, List.mem_filter, Bool.and_eq_true, beq_iff_eq]
      exact ⟨_, ⟨h1, rfl, rfl⟩, rfl⟩
    · right
      rw [if_pos (by simpa [evDir] using h2)]
      simp only [List.mem_map, List.mem_filter, Bool.and_eq_true, beq_iff_eq]
      exact ⟨_, ⟨h1, rfl, rfl⟩, rfl⟩

theorem mem_mEvents {j : Nat} {evs : List (Nat × Bool × Bool)} : ∀ {s : S},
    (j ∈ (mEvents s evs).sco.paused ↔ j ∈ s.sco.paused ∧ ¬ ∃ e ∈ evs, ∃ w, (e.1, w, j) ∈ s.evw ∧ evDir e w = true) := by
  induction evs with
  | nil => intro s; simp [mEvents]
  | cons e q ih =>
    intro s
    simp only [mEvents, ih, mem_mEvent, mEvent_evw]
    simp only [List.mem_cons, exists_eq_or_imp, not_or, and_assoc]

/-- who is blocked in a wait for a descriptor is among the waiters for it -/
theorem wait_in {ok} {s : S} (r : Reach ok s) (hf : s.fault = false) {i fd : Nat} {w : Bool} {dl : Int} (hb : Blocked s i) (hp : pending i s.log = some (.wait fd w dl)) :
    (fd, w, i) ∈ s.evw := by
  have hcall := ((pending_call r).mp hp).1
  obtain ⟨b, hpc, dl', hbc, _⟩ := blocked_blk r hb hp (fun e => by have := (reach_invN r hf i).ft; simp [fits, e, hcall] at this)
  have hbb : b = .wait := by
    cases b <;> simp [BlkC] at hbc <;> first | rfl | (rename_i x; cases x <;> simp [BlkC] at hbc)
  subst hbb
  exact (((reach_invF r).cf i).ev fd w).mpr ⟨hpc, dl, hcall⟩

/-- the waiters for descriptors are in a wait for them -/
theorem in_wait {ok} {s : S} (r : Reach ok s) {i fd : Nat} {w : Bool} (h : (fd, w, i) ∈ s.evw) : ∃ dl, pending i s.log = some (.wait fd w dl) := by
  obtain ⟨hpc, dl, hcall⟩ := (((reach_invF r).cf i).ev fd w).mp h
  exact ⟨dl, (pending_call r).mpr ⟨hcall, by simp⟩⟩

/-- the main loop asks for events whenever somebody waits for a descriptor -/
theorem evw_pos {ok} {s : S} (r : Reach ok s) (hf : s.fault = false) {i fd : Nat} {w : Bool} (h : (fd, w, i) ∈ s.evw) (hb : Blocked s i) : s.nevwaiters > 0 := by
  have hs := stat_waiting r hf .ev
  obtain ⟨hpc, dl, hcall⟩ := (((reach_invF r).cf i).ev fd w).mp h
  have hi := WF.paused_le (reach_scoWF r) hb
  have hw : inWait s i = true := wk_wait (k := .ev) (by rw [hpc]; rfl)
  have hk : kindOf s i = some .ev := by rw [kind_wk r hf i hw, hpc]; rfl
  have : 0 < waiting s .ev := by
    unfold waiting
    exact List.countP_pos_iff.mpr ⟨i, by simp; omega, by simp [hw, hk]⟩
  simp only [statOf, getStats] at hs
  omega

theorem tauCo_armed {s s' : S} {i : Nat} (hs : tauCo s i = some s') : s'.armed = s.armed := by
  have hb : ∀ (s : S) (i : Nat) (b : Blk), (afterBlk s i b).armed = s.armed := by
    intro s i b; cases b <;> simp only [afterBlk] <;> (repeat' split) <;> simp
  unfold tauCo at hs
  split at hs <;> (repeat' split at hs) <;> cases hs <;> simp [hb]

/-- what the system is asked for only changes when a coroutine waits for a descriptor and when events are reported -/
theorem step_armed {s s' : S} {a : Act} (hs : step s a = some s') (h1 : ∀ fd w dl, a ≠ .call (.wait fd w dl)) (h2 : ∀ evs, a ≠ .events evs) : s'.armed = s.armed := by
  unfold step at hs
  split at hs
  · cases hs
  cases a with
  | call c =>
    simp only at hs; (repeat' split at hs) <;> cases hs
    cases c <;> first | (exact absurd rfl (h1 _ _ _)) | (simp only [doCall]; (repeat' split) <;> simp)
  | finish => simp only at hs; (repeat' split at hs) <;> cases hs; simp
  | tau =>
    simp only at hs
    split at hs
    · exact tauCo_armed hs
    · unfold tauMain at hs
      (repeat' split at hs) <;> cases hs <;> simp
  | submit ok => simp only at hs; (repeat' split at hs) <;> cases hs <;> simp
  | events evs => exact absurd rfl (h2 evs)
  | clock t => simp only at hs; split at hs <;> cases hs; rfl
  | signal n => simp only at hs; (repeat' split at hs) <;> cases hs <;> rfl
  | wdone i => simp only at hs; (repeat' split at hs) <;> cases hs; simp

theorem mEvents_armed {fd : Nat} {evs : List (Nat × Bool × Bool)} (h : ∀ e ∈ evs, e.1 ≠ fd) : ∀ {s : S}, (mEvents s evs).armed fd = s.armed fd := by
  induction evs with
  | nil => intro s; rfl
  | cons e q ih =>
    intro s
    simp only [mEvents]
    rw [ih (fun e he => h e (.tail _ he))]
    simp only [mEvent, wakeAll_armed]
    rw [if_neg (fun e' => h e (.head _) e'.symm)]

/-- what `mEvents` records: only waiters in reported directions -/
theorem mEvents_ready {fd i : Nat} {w : Bool} {evs : List (Nat × Bool × Bool)} : ∀ {s : S}, .ready fd w i ∈ (mEvents s evs).log →
    .ready fd w i ∈ s.log ∨ ∃ e ∈ evs, e.1 = fd ∧ evDir e w = true := by
  induction evs with
  | nil => intro s h; exact .inl h
  | cons e q ih =>
    intro s h
    rcases ih h with h | ⟨e', h1, h2⟩
    · simp only [mEvent, wakeAll_log, List.mem_append] at h
      rcases h with (h | h) | h
      · split at h
        · rename_i hd
          rw [List.mem_map] at h
          obtain ⟨_, _, h⟩ := h; cases h
          exact .inr ⟨e, .head _, rfl, by simpa [evDir] using hd⟩
        · simp at h
      · split at h
        · rename_i hd
          rw [List.mem_map] at h
          obtain ⟨_, _, h⟩ := h; cases h
          exact .inr ⟨e, .head _, rfl, by simpa [evDir] using hd⟩
        · simp at h
      · exact .inl h
    · exact .inr ⟨e', .tail _ h1, h2⟩

end Neco.Rt
