import Verif.Proof.RtGen
/-!
# Broadcasts, closes and selects in one step
-/
namespace Neco.Rt
open Neco.Err

/-- the entry `n` of a queue is an offer of its owner to receive -/
def offerOk (s : S) (n : Node) : Prop := ∀ k, n = .case n.owner k → (s.co n.owner).retIdx = -1

theorem bcastLoop_spec {s : S} {c : Nat} {m : Msg} {q : List Node} (hnd : q.Nodup) (hex : ∀ j k, .co j ∈ q → .case j k ∉ q) :
    ∃ rs : List Nat, (bcastLoop s c m q).1.log = rs.map (fun j => .bcastTo c j m) ++ s.log ∧ (bcastLoop s c m q).2 = rs.length ∧ rs.Nodup ∧
      (∀ j, j ∈ rs ↔ ∃ n ∈ q, n.owner = j ∧ offerOk s n) ∧ ∀ j, .co j ∈ s.lists .resumers ∨ j ∈ rs → .co j ∈ (bcastLoop s c m q).1.lists .resumers := by
  induction q generalizing s with
  | nil => exact ⟨[], rfl, rfl, List.nodup_nil, by simp, by simp [bcastLoop, setList_lists]⟩
  | cons n q ih =>
    have hnd' := List.nodup_cons.mp hnd
    have hex' : ∀ j k, .co j ∈ q → .case j k ∉ q := fun j k h1 h2 => hex j k (List.mem_cons_of_mem _ h1) (List.mem_cons_of_mem _ h2)
    cases n with
    | co r =>
      unfold bcastLoop; dsimp only
      obtain ⟨rs, h1, h2, h3, h4, h5⟩ := ih (s := schedResume (note (upd (setList s (.chanQ c) q) r (fun k => { k with rdat := m })) (.bcastTo c r m)) r) hnd'.2 hex'
      have hoff : ∀ n, offerOk (schedResume (note (upd (setList s (.chanQ c) q) r (fun k => { k with rdat := m })) (.bcastTo c r m)) r) n ↔ offerOk s n := by
        intro n; unfold offerOk
        have : ∀ j, ((schedResume (note (upd (setList s (.chanQ c) q) r (fun k => { k with rdat := m })) (.bcastTo c r m)) r).co j).retIdx = (s.co j).retIdx := by
          intro j; simp only [schedResume_co, note_co, upd_co, setList_co]; split
          · rename_i e; rw [e]
          · rfl
        rw [this]
      simp only [hoff] at h4
      have hr : r ∉ rs := by
        intro h
        obtain ⟨n, hn, ho, _⟩ := (h4 r).mp h
        cases n with
        | co j => simp [Node.owner] at ho; subst ho; exact hnd'.1 hn
        | case j k => simp [Node.owner] at ho; subst ho; exact hex j k List.mem_cons_self (List.mem_cons_of_mem _ hn)
      refine ⟨rs ++ [r], by rw [h1]; simp, by rw [h2]; simp, ?_, ?_, ?_⟩
      · rw [List.nodup_append]; exact ⟨h3, by simp, fun a ha b hb => by simp at hb; subst hb; rintro rfl; exact hr ha⟩
      · intro j
        rw [List.mem_append, h4]
        constructor
        · rintro (⟨n, hn, h⟩ | h)
          · exact ⟨n, List.mem_cons_of_mem _ hn, h⟩
          · simp at h; subst h; exact ⟨_, List.mem_cons_self, rfl, by intro k e; simp at e⟩
        · rintro ⟨n, hn, ho, hk⟩
          rcases List.mem_cons.mp hn with rfl | hn
          · right; simp [Node.owner] at ho; simp [ho]
          · exact .inl ⟨n, hn, ho, hk⟩
      · intro j hj
        apply h5
        rw [mem_sched]
        rcases hj with hj | hj
        · by_cases e : j = r
          · subst e; exact .inl (.inr ⟨rfl, rfl⟩)
          · exact .inl (.inl ⟨by simpa [setList_lists] using hj, by simpa using e⟩)
        · rcases List.mem_append.mp hj with hj | hj
          · exact .inr hj
          · simp at hj; subst hj; exact .inl (.inr ⟨rfl, rfl⟩)
    | case r x =>
      unfold bcastLoop; split
      · rename_i hx
        obtain ⟨rs, h1, h2, h3, h4, h5⟩ := ih (s := s) hnd'.2 hex'
        refine ⟨rs, h1, h2, h3, fun j => ?_, h5⟩
        rw [h4]
        constructor
        · rintro ⟨n, hn, h⟩; exact ⟨n, List.mem_cons_of_mem _ hn, h⟩
        · rintro ⟨n, hn, ho, hk⟩
          rcases List.mem_cons.mp hn with rfl | hn
          · exact absurd (hk x rfl) hx
          · exact ⟨n, hn, ho, hk⟩
      · rename_i hx
        have hx : (s.co r).retIdx = -1 := Classical.not_not.mp hx
        dsimp only
        generalize hu : schedResume (note { upd (setList s (.chanQ c) q) r (fun k => { k with retIdx := (x : Int) }) with chan := fun k => if k = c then (s.chan c).map (fun ch => { ch with lok := true, lmsg := m }) else s.chan k } (.bcastTo c r m)) r = u
        obtain ⟨rs, h1, h2, h3, h4, h5⟩ := ih (s := u) hnd'.2 hex'
        have hul : u.log = .bcastTo c r m :: s.log := by subst hu; simp
        have huc : ∀ j, (u.co j).retIdx = if j = r then (x : Int) else (s.co j).retIdx := by
          intro j; subst hu; simp [upd_co]; split <;> rfl
        have hur : ∀ j, .co j ∈ u.lists .resumers ↔ j = r ∨ .co j ∈ s.lists .resumers := by
          intro j; subst hu; rw [mem_sched]; simp [setList_lists]
          by_cases e : j = r <;> simp [e]
        have hr : r ∉ rs := by
          intro h
          obtain ⟨n, hn, ho, hk⟩ := (h4 r).mp h
          cases n with
          | co j => simp [Node.owner] at ho; subst ho; exact hex j x (List.mem_cons_of_mem _ hn) List.mem_cons_self
          | case j k =>
            simp [Node.owner] at ho; subst ho
            have := hk k rfl
            rw [huc] at this; simp [Node.owner] at this
        refine ⟨rs ++ [r], by rw [h1, hul]; simp, by rw [h2]; simp, ?_, ?_, ?_⟩
        · rw [List.nodup_append]; exact ⟨h3, by simp, fun a ha b hb => by simp at hb; subst hb; rintro rfl; exact hr ha⟩
        · intro j
          rw [List.mem_append, h4]
          by_cases e : j = r
          · subst e
            constructor
            · exact fun _ => ⟨_, List.mem_cons_self, rfl, fun _ _ => hx⟩
            · exact fun _ => .inr (by simp)
          · constructor
            · rintro (⟨n, hn, ho, hk⟩ | h)
              · refine ⟨n, List.mem_cons_of_mem _ hn, ho, fun k hk' => ?_⟩
                have := hk k hk'; rw [huc, ho, if_neg e] at this; rw [ho]; exact this
              · simp at h; exact absurd h e
            · rintro ⟨n, hn, ho, hk⟩
              rcases List.mem_cons.mp hn with rfl | hn
              · simp [Node.owner] at ho; exact absurd ho.symm e
              · refine .inl ⟨n, hn, ho, fun k hk' => ?_⟩
                have := hk k hk'; rw [huc, ho, if_neg e]; rw [ho] at this; exact this
        · intro j hj
          apply h5
          rw [hur]
          rcases hj with hj | hj
          · exact .inl (.inr hj)
          · rcases List.mem_append.mp hj with hj | hj
            · exact .inr hj
            · simp at hj; exact .inl (.inl hj)

theorem closeLoop_wakes {s : S} {c : Nat} {q : List Node} {j : Nat} (h : .co j ∈ s.lists .resumers ∨ ∃ n ∈ q, n.owner = j ∧ offerOk s n) :
    .co j ∈ (closeLoop s c q).lists .resumers := by
  induction q generalizing s with
  | nil =>
    rcases h with h | ⟨n, hn, _⟩
    · simpa [closeLoop, setList_lists] using h
    · cases hn
  | cons n q ih =>
    cases n with
    | co r =>
      unfold closeLoop
      apply ih
      rw [mem_sched]
      by_cases e : j = r
      · subst e; exact .inl (.inr ⟨rfl, rfl⟩)
      rcases h with h | ⟨n, hn, ho, hk⟩
      · exact .inl (.inl ⟨by simpa [setList_lists] using h, by simpa using e⟩)
      · rcases List.mem_cons.mp hn with rfl | hn
        · exact absurd ho.symm e
        · refine .inr ⟨n, hn, ho, fun k hk' => ?_⟩
          have := hk k hk'; rw [ho] at this ⊢; simp [upd_co, e]; exact this
    | case r x =>
      unfold closeLoop; split
      · rename_i hx
        refine ih (h.imp id ?_)
        rintro ⟨n, hn, ho, hk⟩
        rcases List.mem_cons.mp hn with rfl | hn
        · exact absurd (hk x rfl) hx
        · exact ⟨n, hn, ho, hk⟩
      · apply ih
        rw [mem_sched]
        by_cases e : j = r
        · subst e; exact .inl (.inr ⟨rfl, rfl⟩)
        rcases h with h | ⟨n, hn, ho, hk⟩
        · exact .inl (.inl ⟨by simpa [setList_lists] using h, by simpa using e⟩)
        · rcases List.mem_cons.mp hn with rfl | hn
          · exact absurd ho.symm e
          · refine .inr ⟨n, hn, ho, fun k hk' => ?_⟩
            have := hk k hk'; rw [ho] at this ⊢; simp [upd_co, e]; exact this

/-! ## Select -/

theorem selScan_first {s : S} {j : Nat} {cs : List Nat} {k c : Nat} (h : selScan s j cs = some (k, c)) {x c' : Nat} (hx : j + x < k) (hc : cs[x]? = some c') {ch : Chan}
    (he : s.chan c' = some ch) : (s.lists (.chanQ c') = [] ∨ ch.qrecv = true) ∧ ch.buf = [] ∧ ch.rclosed = false := by
  induction cs generalizing j x with
  | nil => cases hc
  | cons d cs ih =>
    simp only [selScan] at h
    cases x with
    | zero =>
      simp at hc; subst hc
      rw [he] at h; simp only at h
      split at h
      · cases h; omega
      · rename_i hn
        simp only [not_or] at hn
        refine ⟨?_, Classical.not_not.mp hn.2.1, by simpa using hn.2.2⟩
        by_cases h1 : s.lists (.chanQ d) = []
        · exact .inl h1
        · right; have := hn.1; simp [h1] at this; exact this
    | succ x =>
      simp at hc
      split at h
      · exact ih h (by omega) hc
      · split at h
        · cases h; omega
        · exact ih h (by omega) hc

theorem QM.nil {s : S} {c : Nat} {ch : Chan} (h : QM s c) (hc : s.chan c = some ch) (h1 : s.lists (.chanQ c) = [] ∨ ch.qrecv = true) (h2 : ch.buf = []) : content c s.log = [] := by
  obtain ⟨A, e1, e2⟩ := h ch hc
  rw [h2] at e2
  have hA : A = [] := by simpa using e2
  rw [e1, hA]; unfold offers
  rcases h1 with h1 | h1
  · rw [h1]; simp
  · rw [if_pos h1]; rfl

/-- nothing can be received from `c` -/
def Dry (s : S) (c : Nat) : Prop := ∃ ch, s.chan c = some ch ∧ ch.rclosed = false ∧ content c s.log = []

theorem chanSelect_out {t : S} {i : Nat} {cs : List Nat} {tr : Bool} {dl : Int} (x : Ctx t i) (hf : (chanSelect t i cs dl tr).fault = false) :
    (((chanSelect t i cs dl tr).co i).pc = .ret CANCELED ∧ (chanSelect t i cs dl tr).log = t.log ∧ (t.co i).canceled = true) ∨
    ((t.co i).canceled = false ∧ ∃ (k c : Nat) (ch : Chan), cs[k]? = some c ∧ t.chan c = some ch ∧ outPc ((chanSelect t i cs dl tr).co i).pc = some (k : Int) ∧ (∀ j c', j < k → cs[j]? = some c' → Dry t c') ∧
      ((ch.rclosed = true ∧ content c t.log = [] ∧ (chanSelect t i cs dl tr).log = t.log) ∨
       (∃ p m rest, content c t.log = (p, m) :: rest ∧ (chanSelect t i cs dl tr).log = .take c i m :: t.log))) ∨
    ((t.co i).canceled = false ∧ (∀ c ∈ cs, Dry t c) ∧ (chanSelect t i cs dl tr).log = t.log ∧ (tr = true → ((chanSelect t i cs dl tr).co i).pc = .ret EMPTY) ∧
      (tr = false → ((chanSelect t i cs dl tr).co i).pc = .blk .sel)) := by
  generalize ht : chanSelect t i cs dl tr = u at *
  unfold chanSelect at ht
  split at ht
  · subst ht; cases hf
  rename_i hany
  have hsome : ∀ c ∈ cs, ∃ ch, t.chan c = some ch := by
    intro c hc
    cases hch : t.chan c with
    | none => exact absurd (List.any_eq_true.mpr ⟨c, hc, by rw [hch]; rfl⟩) hany
    | some ch => exact ⟨ch, rfl⟩
  split at ht
  · rename_i hcan; subst ht; exact .inl ⟨by rw [pc_retv], rfl, hcan⟩
  rename_i hcan
  have hcan : (t.co i).canceled = false := by simpa using hcan
  split at ht
  · rename_i k c hsel
    obtain ⟨ch, hch, hav, _, hk⟩ := selScan_some hsel
    simp at hk
    rw [hch] at ht; simp only at ht
    have hdry : ∀ j c', j < k → cs[j]? = some c' → Dry t c' := by
      intro j c' hj hc'
      obtain ⟨ch', hch'⟩ := hsome c' (List.mem_of_getElem? hc')
      obtain ⟨h1, h2, h3⟩ := selScan_first hsel (by omega) hc' hch'
      exact ⟨ch', hch', h3, (x.M c').nil hch' h1 h2⟩
    right; left
    refine ⟨hcan, k, c, ch, hk, hch, ?_⟩
    split at ht
    · rename_i hr; subst ht; exact ⟨by rw [pc_setPc]; rfl, hdry, .inl ⟨hr, x.closed hch hr, rfl⟩⟩
    split at ht
    · rename_i m o w hw
      subst ht
      obtain ⟨hl, ⟨p, rest, h2⟩, _⟩ := recvNow_msg x.Q x.L x.M hch hw
      refine ⟨by rw [pc_resumeOpt, pc_setPc]; rfl, hdry, .inr ⟨p, m, rest, h2, by simpa using hl⟩⟩
    · subst ht; cases hf
  · rename_i hsel
    right; right
    have hdry : ∀ c ∈ cs, Dry t c := by
      intro c hc
      obtain ⟨ch, hch⟩ := hsome c hc
      obtain ⟨h1, h2, h3⟩ := selScan_none hsel hc hch
      exact ⟨ch, hch, h3, (x.M c).nil hch h1 h2⟩
    split at ht
    · rename_i h; subst ht; exact ⟨hcan, hdry, rfl, fun _ => by rw [pc_retv], fun e => by rw [h] at e; cases e⟩
    · rename_i h; subst ht; exact ⟨hcan, hdry, by simp, fun e => absurd e h, fun _ => by rw [pc_copause]⟩

end Neco.Rt
