import Verif.Proof.RtSettle
/-!
# Waiting for the end of a coroutine
-/
namespace Neco.Rt
open Neco.Err

/-- a joiner is told only about coroutines that are gone -/
def joinP : Ev → List Ev → Prop
  | .wake (.joinQ t) _, b => t ∈ starts b ∧ t ∉ live b
  | .nowait (.joinQ t) _, b => t ∉ live b
  | _, _ => True

theorem joinP_kind {e : Ev} {b : List Ev} (h1 : e.kind ≠ .wake) (h2 : e.kind ≠ .nowait) : joinP e b := by
  cases e <;> simp_all [Ev.kind, joinP]

theorem joinP_ks {ks : List Kind} {e : Ev} {b : List Ev} (h : e.kind ∈ ks) (hk : Kind.wake ∉ ks ∧ Kind.nowait ∉ ks) : joinP e b :=
  joinP_kind (fun e => hk.1 (e ▸ h)) (fun e => hk.2 (e ▸ h))

@[simp] theorem note_log (s : S) (e : Ev) : (note s e).log = e :: s.log := rfl

theorem schedAll_log_mem {s : S} {L : LName} {q : List Node} : ∃ es, (schedAll s L q).log = es ++ s.log ∧ ∀ e ∈ es, ∃ n ∈ q, e = .wake L n.owner := by
  induction q generalizing s with
  | nil => exact ⟨[], rfl, by simp⟩
  | cons n q ih =>
    obtain ⟨es, h1, h2⟩ := ih (s := note (schedResume s n.owner) (.wake L n.owner))
    refine ⟨es ++ [.wake L n.owner], ?_, ?_⟩
    · simp only [schedAll]; rw [h1, note_log, schedResume_log]; simp
    · intro e he
      rcases List.mem_append.mp he with he | he
      · obtain ⟨m, hm, rfl⟩ := h2 e he; exact ⟨m, List.mem_cons_of_mem _ hm, rfl⟩
      · simp at he; exact ⟨n, by simp, he⟩

/-- the history of `exitNotify` -/
theorem exitNotify_log (s : S) (i : Nat) (a : Bool) :
    ∃ e1 e2, (exitNotify s i a).log = e2 ++ (e1 ++ .exit i :: s.log) ∧ (∀ e ∈ e1, ∃ j, e = .wake (.cancelQ i) j) ∧ (∀ e ∈ e2, ∃ j, e = .wake (.joinQ i) j) := by
  have key : ∀ t0 : S, t0.log = .exit i :: s.log → ∀ (q1 q2 : List Node) (u : S), u.log = (schedAll (setList (schedAll (setList t0 (.cancelQ i) []) (.cancelQ i) q1) (.joinQ i) []) (.joinQ i) q2).log →
      ∃ e1 e2, u.log = e2 ++ (e1 ++ .exit i :: s.log) ∧ (∀ e ∈ e1, ∃ j, e = .wake (.cancelQ i) j) ∧ (∀ e ∈ e2, ∃ j, e = .wake (.joinQ i) j) := by
    intro t0 h0 q1 q2 u hu
    obtain ⟨e1, a1, a2⟩ := schedAll_log_mem (s := setList t0 (.cancelQ i) []) (L := .cancelQ i) (q := q1)
    obtain ⟨e2, b1, b2⟩ := schedAll_log_mem (s := setList (schedAll (setList t0 (.cancelQ i) []) (.cancelQ i) q1) (.joinQ i) []) (L := .joinQ i) (q := q2)
    refine ⟨e1, e2, ?_, fun e he => ?_, fun e he => ?_⟩
    · rw [hu, b1, setList_log, a1, setList_log, h0]
    · obtain ⟨n, _, h⟩ := a2 e he; exact ⟨_, h⟩
    · obtain ⟨n, _, h⟩ := b2 e he; exact ⟨_, h⟩
  unfold exitNotify; dsimp only
  (repeat' split)
  · exact key _ rfl _ _ _ (setPc_log ..)
  · exact key _ rfl _ _ _ rfl
  · exact key _ rfl _ _ _ (setPc_log ..)
  · exact key _ rfl _ _ _ (chanClose1_log ..)

theorem live_wakes {es l : List Ev} (h : ∀ e ∈ es, ∃ L j, e = .wake L j) : live (es ++ l) = live l ∧ starts (es ++ l) = starts l := by
  induction es with
  | nil => exact ⟨rfl, rfl⟩
  | cons e es ih =>
    have := ih (fun x hx => h x (List.mem_cons_of_mem _ hx))
    obtain ⟨L, j, rfl⟩ := h e (by simp)
    simpa [live, starts] using this

theorem Hist.all {P : Ev → List Ev → Prop} {es l : List Ev} (h : Hist P l) (he : ∀ a e b, es = a ++ e :: b → P e (b ++ l)) : Hist P (es ++ l) := by
  induction es with
  | nil => exact h
  | cons e es ih => exact ⟨he [] e es rfl, ih (fun a x b hx => he (e :: a) x b (by rw [hx]; rfl))⟩

theorem wake_hist {es l : List Ev} {L : LName} (h : Hist joinP l) (he : ∀ e ∈ es, ∃ j, e = .wake L j) (hL : ∀ t, L ≠ .joinQ t) : Hist joinP (es ++ l) :=
  h.append (fun e he' b => by
    obtain ⟨j, rfl⟩ := he e he'
    cases L <;> first | trivial | exact absurd rfl (hL _))

theorem exitNotify_hist {s : S} {i : Nat} (a : Bool) (h : Hist joinP s.log) (hi : i ∈ starts s.log) : Hist joinP (exitNotify s i a).log := by
  obtain ⟨e1, e2, h1, h2, h3⟩ := exitNotify_log s i a
  rw [h1]
  have b1 : Hist joinP (e1 ++ .exit i :: s.log) := wake_hist ⟨trivial, h⟩ h2 (by simp)
  have hl := live_wakes (es := e1) (l := .exit i :: s.log) (fun e he => by obtain ⟨j, h⟩ := h2 e he; exact ⟨_, _, h⟩)
  refine b1.all ?_
  intro x e b hb
  obtain ⟨j, rfl⟩ := h3 e (by rw [hb]; simp)
  have hb' := live_wakes (es := b) (l := e1 ++ .exit i :: s.log) (fun e he => by obtain ⟨j, h⟩ := h3 e (by rw [hb]; simp [he]); exact ⟨_, _, h⟩)
  refine ⟨?_, ?_⟩
  · rw [hb'.2, hl.2]; exact hi
  · rw [hb'.1, hl.1]; simp [live]

theorem wgDone_log (s : S) (i w : Nat) : ∃ es, (wgDone s i w).log = es ++ s.log ∧ ∀ e ∈ es, ∃ j, e = .wake (.wgQ w) j := by
  unfold wgDone; dsimp only; (repeat' split)
  · exact ⟨[], by simp, by simp⟩
  · exact ⟨[], by simp, by simp⟩
  · rename_i n _; exact ⟨[.wake (.wgQ w) n.owner], by simp, by simp⟩
  · rename_i q _ _
    obtain ⟨es, h1, h2⟩ := schedAll_log_mem (s := setList (setWg s w (s.wg w - 1)) (.wgQ w) []) (L := .wgQ w) (q := (setWg s w (s.wg w - 1)).lists (.wgQ w))
    refine ⟨es, ?_, fun e he => by obtain ⟨n, _, h⟩ := h2 e he; exact ⟨_, h⟩⟩
    rw [yfsr_log, h1]; simp
  · exact ⟨[], by simp, by simp⟩
theorem cvSignal_log (s : S) (i v : Nat) : ∃ es, (cvSignal s i v).log = es ++ s.log ∧ ∀ e ∈ es, ∃ j, e = .wake (.cvQ v) j := by
  unfold cvSignal; split
  · exact ⟨[], by simp, by simp⟩
  · rename_i n q _; exact ⟨[.wake (.cvQ v) n.owner], by simp, by simp⟩
theorem cvBcast_log (s : S) (i v : Nat) : ∃ es, (cvBcast s i v).log = es ++ s.log ∧ ∀ e ∈ es, ∃ j, e = .wake (.cvQ v) j := by
  unfold cvBcast
  obtain ⟨es, h1, h2⟩ := schedAll_log_mem (s := setList s (.cvQ v) []) (L := .cvQ v) (q := s.lists (.cvQ v))
  exact ⟨es, by rw [yfsr_log, h1]; simp, fun e he => by obtain ⟨n, _, h⟩ := h2 e he; exact ⟨_, h⟩⟩
theorem wgWait_log (s : S) (i w : Nat) (dl : Int) : ∃ es, (wgWait s i w dl).log = es ++ s.log ∧ ∀ e ∈ es, e = .nowait (.wgQ w) i ∧ s.wg w = 0 := by
  unfold wgWait; dsimp only; (repeat' split)
  · exact ⟨[], by simp, by simp⟩
  · rename_i h; exact ⟨[.nowait (.wgQ w) i], by simp, by simpa using h⟩
  · exact ⟨[], by simp, by simp⟩
theorem doJoin_log (s : S) (i id : Nat) (dl : Int) : ∃ es, (doJoin s i id dl).log = es ++ s.log ∧ ∀ e ∈ es, e = .nowait (.joinQ id) i ∧ id ∉ s.all := by
  unfold doJoin; dsimp only; (repeat' split)
  · rename_i h; exact ⟨[.nowait (.joinQ id) i], by simp, by simpa using h⟩
  all_goals exact ⟨[], by simp, by simp⟩

theorem reach_joinP {ok} {s : S} (r : Reach ok s) : Hist joinP s.log := by
  induction r with
  | init a e => exact ⟨trivial, trivial⟩
  | @step s s' r a hok hs ih =>
    have hw := reach_scoWF r
    have ha := step_adds hs
    cases a with
    | call c =>
      have hs0 := hs
      unfold Rt.step at hs
      split at hs
      · cases hs
      simp only at hs
      split at hs
      · cases hs
      rename_i i hc
      split at hs <;> cases hs
      rename_i hp; clear hp hs0
      have h0 : Hist joinP (upd (note s (.call i c)) i (fun k => { k with call := c })).log := ⟨trivial, ih⟩
      have general : ∀ es : List Ev, ∀ t : S, t.log = es ++ (upd (note s (.call i c)) i (fun k => { k with call := c })).log → (∀ e ∈ es, ∀ b, joinP e b) → Hist joinP t.log :=
        fun es t h1 h2 => by rw [h1]; exact h0.append h2
      cases c
      case wgDone w =>
        obtain ⟨es, h1, h2⟩ := wgDone_log (upd (note s (.call i (.wgDone w))) i (fun k => { k with call := .wgDone w })) i w
        exact general es _ h1 (fun e he b => by obtain ⟨j, rfl⟩ := h2 e he; trivial)
      case cvSignal w =>
        obtain ⟨es, h1, h2⟩ := cvSignal_log (upd (note s (.call i (.cvSignal w))) i (fun k => { k with call := .cvSignal w })) i w
        exact general es _ h1 (fun e he b => by obtain ⟨j, rfl⟩ := h2 e he; trivial)
      case cvBcast w =>
        obtain ⟨es, h1, h2⟩ := cvBcast_log (upd (note s (.call i (.cvBcast w))) i (fun k => { k with call := .cvBcast w })) i w
        exact general es _ h1 (fun e he b => by obtain ⟨j, rfl⟩ := h2 e he; trivial)
      case wgWait w dl =>
        obtain ⟨es, h1, h2⟩ := wgWait_log (upd (note s (.call i (.wgWait w dl))) i (fun k => { k with call := .wgWait w dl })) i w dl
        exact general es _ h1 (fun e he b => by obtain ⟨rfl, _⟩ := h2 e he; trivial)
      case join t dl =>
        obtain ⟨es, h1, h2⟩ := doJoin_log (upd (note s (.call i (.join t dl))) i (fun k => { k with call := .join t dl })) i t dl
        show Hist joinP (doJoin _ i t dl).log
        rw [h1]
        refine h0.all (fun x e b hb => ?_)
        obtain ⟨rfl, h3⟩ := h2 e (by rw [hb]; simp)
        show t ∉ live _
        have : live (b ++ (upd (note s (.call i (.join t dl))) i (fun k => { k with call := .join t dl })).log) = live s.log := by
          have : ∀ b : List Ev, (∀ e ∈ b, e = .nowait (.joinQ t) i) → live (b ++ (upd (note s (.call i (.join t dl))) i (fun k => { k with call := .join t dl })).log) = live s.log := by
            intro b hb
            induction b with
            | nil => rfl
            | cons y b ih => have := hb y (by simp); subst this; simpa [live] using ih (fun e he => hb e (by simp [he]))
          exact this b (fun e he => (h2 e (by rw [hb]; simp [he])).1)
        rw [this, ← all_live r]; simpa using h3
      all_goals exact h0.adds (doCall_adds _ i _) (fun e b hk => joinP_ks hk (by simp [callKinds]))
    | tau =>
      cases hc : s.sco.cur with
      | none =>
        refine ih.adds ha (fun e b hk => ?_)
        simp only [stepKinds, hc] at hk
        revert hk; unfold mainKinds; split <;> intro hk <;> simp at hk <;> exact joinP_kind (by rw [hk]; decide) (by rw [hk]; decide)
      | some i =>
        unfold Rt.step at hs
        split at hs
        · cases hs
        simp only [hc] at hs
        by_cases hp : ∃ x, (s.co i).pc = .exitRun x
        · obtain ⟨x, hp⟩ := hp
          unfold tauCo at hs; rw [hp] at hs; simp at hs; subst hs
          have hi : i ∈ starts s.log := (mem_starts r).mpr (cur_le hw hc)
          unfold doExit; (repeat' split)
          · exact ⟨trivial, ih⟩
          · exact exitNotify_hist _ ih hi
          · exact exitNotify_hist _ ih hi
        · refine ih.adds (tauCo_adds hs) (fun e b hk => ?_)
          revert hk; unfold pcKinds; split <;> intro hk <;> simp at hk
          all_goals first
            | exact absurd ⟨_, by assumption⟩ hp
            | (rcases hk with hk | hk <;> exact joinP_kind (by rw [hk]; decide) (by rw [hk]; decide))
            | exact joinP_kind (by rw [hk]; decide) (by rw [hk]; decide)
    | wdone _ => exact ih.adds ha (fun e b hk => by simp [stepKinds] at hk; rcases hk with hk | hk <;> exact joinP_kind (by rw [hk]; decide) (by rw [hk]; decide))
    | _ => exact ih.adds ha (fun e b hk => by simp [stepKinds] at hk <;> exact joinP_kind (by rw [hk]; decide) (by rw [hk]; decide))

end Neco.Rt
