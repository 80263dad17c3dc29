import Verif.Proof.RtDone
/-!
# Helpers for the properties of starting, joining, suspending and sleeping
-/
namespace Neco.Rt
open Neco.Err

/-- a start is preceded by the call that asked for it -/
def startP : Ev → List Ev → Prop
  | .start (some p) _, b => ∃ c b', b = .call p c :: b' ∧ (c = .start ∨ c = .genStart)
  | _, _ => True

theorem reach_startP {ok} {s : S} (r : Reach ok s) : Hist startP (rl s) := by
  induction r with
  | init a e => exact ⟨trivial, trivial⟩
  | @step s s' r a hok hs ih =>
    obtain ⟨es, h1, h2⟩ := step_rl hs
    rw [h1]
    cases h2 with
    | call => exact ⟨trivial, ih⟩
    | start c i _ _ hc => exact ⟨⟨c, _, rfl, hc⟩, trivial, ih⟩
    | cpop => exact ⟨trivial, trivial, ih⟩
    | tau i hi es ht => cases ht <;> first | exact ih | exact ⟨trivial, ih⟩
    | halt => exact ⟨trivial, ih⟩
    | nil => exact ih
    | sig => exact ⟨trivial, ih⟩
    | wdone => exact ⟨trivial, ih⟩

theorem lastChild_filter (i : Nat) (l : List Ev) : lastChild i (l.filter Ev.rare) = lastChild i l := by
  induction l with
  | nil => rfl
  | cons e l ih =>
    cases e <;> simp only [Ev.rare, List.filter_cons] <;> first | (simp [lastChild, ih]; done) | skip
    rename_i p k; cases p <;> simp [lastChild, ih]

/-- no children without a call -/
theorem no_child {i : Nat} {es l : List Ev} {c : Call} (h : Hist startP (es ++ .call i c :: l)) (hc : c ≠ .start ∧ c ≠ .genStart) (hn : ∀ e ∈ es, isCallOf i e = false) :
    lastChild i (es ++ .call i c :: l) = lastChild i l := by
  induction es with
  | nil => rfl
  | cons e es ih =>
    have hr := ih h.2 (fun x hx => hn x (List.mem_cons_of_mem _ hx))
    cases e with
    | start p k =>
      cases p with
      | none => exact hr
      | some p =>
        simp only [List.cons_append, lastChild]
        split
        · rename_i hp; subst hp
          obtain ⟨c', b', hb, hcc⟩ := h.1
          cases es with
          | nil => simp at hb; rw [hb.1] at hc; rcases hcc with h | h <;> simp [h] at hc
          | cons x es =>
            simp at hb
            have := hn x (by simp)
            rw [hb.1] at this; simp [isCallOf] at this
        · exact hr
    | _ => exact hr

/-- a resume names a coroutine that is in a suspend call -/
def resumeP : Ev → List Ev → Prop
  | .resume _ t, b => (∃ dl, pending t b = some (.suspend dl)) ∧ t ∈ live b
  | _, _ => True

theorem resumeP_ks {ks : List Kind} {e : Ev} {b : List Ev} (h : e.kind ∈ ks) (hk : Kind.resume ∉ ks) : resumeP e b := by
  cases e <;> first | trivial | exact absurd h hk

theorem doResume_log (s : S) (i id : Nat) : (doResume s i id).log = s.log ∨
    ((doResume s i id).log = .resume i id :: s.log ∧ id ∈ s.all ∧ (s.co id).suspended = true) := by
  unfold doResume; (repeat' split)
  · exact .inl rfl
  · exact .inl rfl
  · rename_i h1 h2; exact .inr ⟨rfl, by simpa using h1, by simpa using h2⟩

theorem reach_resumeP {ok} {s : S} (r : Reach ok s) : Hist resumeP s.log := by
  induction r with
  | init a e => exact ⟨trivial, trivial⟩
  | @step s s' r a hok hs ih =>
    by_cases hk : ∃ id, a = .call (.resume id)
    · obtain ⟨id, rfl⟩ := hk
      unfold step at hs
      split at hs
      · cases hs
      simp only at hs
      split at hs
      · cases hs
      rename_i i hc
      split at hs <;> cases hs
      rename_i hp
      simp only [doCall]
      rcases doResume_log (upd (note s (.call i (.resume id))) i (fun k => { k with call := .resume id })) i id with h | ⟨h, ha, hsu⟩
      · rw [h]; exact ⟨trivial, ih⟩
      · rw [h]
        refine ⟨?_, trivial, ih⟩
        have hi : id ≠ i := by
          rintro rfl
          simp [upd_co] at hsu
          have := (((reach_invF r).cf id).su.mp hsu); rw [hp.1] at this; cases this
        simp [upd_co, hi] at hsu ha
        have hpc := ((reach_invF r).cf id).su.mp hsu
        obtain ⟨dl, hb, _⟩ := ((reach_invF r).cf id).bc _ hpc
        refine ⟨⟨dl, ?_⟩, ?_⟩
        · simp only [upd_log, note_log, pending]
          rw [if_neg (fun e => hi e.symm)]
          exact (pending_call r).mpr ⟨hb, by simp⟩
        · simp only [upd_log, note_log, live]; rw [← all_live r]; exact ha
    · obtain ⟨es, h1, h2⟩ := step_adds hs
      rw [h1]
      refine ih.append (fun e he b => resumeP_ks (h2 e he) ?_)
      unfold stepKinds
      cases a with
      | call c => cases c <;> simp [callKinds] <;> exact hk ⟨_, rfl⟩
      | tau => dsimp only; split
               · cases (s.co _).pc <;> simp [pcKinds] <;> (try split) <;> simp
               · cases s.main <;> simp [mainKinds]
      | _ => simp

theorem starts_mem {i : Nat} {l : List Ev} : i ∈ starts l ↔ ∃ q, .start q i ∈ l := by
  induction l with
  | nil => simp [starts]
  | cons e l ih =>
    cases e with
    | start q k =>
      simp only [starts, List.mem_cons, ih, Ev.start.injEq]
      constructor
      · rintro (h | ⟨q', h⟩)
        · exact ⟨q, .inl ⟨rfl, h⟩⟩
        · exact ⟨q', .inr h⟩
      · rintro ⟨q', h | h⟩
        · exact .inl h.2
        · exact .inr ⟨q', h⟩
    | _ => simp [starts, ih]

theorem start_unique {i : Nat} {l : List Ev} (hn : (starts l).Nodup) {q p : Option Nat} (h1 : .start q i ∈ l) (h2 : .start p i ∈ l) : q = p := by
  induction l with
  | nil => cases h1
  | cons e l ih =>
    by_cases he : ∃ x, e = .start x i
    · obtain ⟨x, rfl⟩ := he
      have hni : i ∉ starts l := by simp only [starts, List.nodup_cons] at hn; exact hn.1
      rcases List.mem_cons.mp h1 with h1 | h1
      · rcases List.mem_cons.mp h2 with h2 | h2
        · cases h1; cases h2; rfl
        · exact absurd (starts_mem.mpr ⟨_, h2⟩) hni
      · exact absurd (starts_mem.mpr ⟨_, h1⟩) hni
    · have hn' : (starts l).Nodup := by
        cases e <;> simp only [starts] at hn <;> first | exact hn | exact (List.nodup_cons.mp hn).2
      have h1' : Ev.start q i ∈ l := by
        rcases List.mem_cons.mp h1 with h1 | h1
        · exact absurd ⟨_, h1.symm⟩ he
        · exact h1
      have h2' : Ev.start p i ∈ l := by
        rcases List.mem_cons.mp h2 with h2 | h2
        · exact absurd ⟨_, h2.symm⟩ he
        · exact h2
      exact ih hn' h1' h2'

end Neco.Rt
