import Verif.Proof.Args3

/-! # The invariant holds in every state -/

namespace Neco.Args

variable {s t : S} {A B : List Nat} {ref : Nat → Nat}

theorem inv_init : Inv {} := by
  refine ⟨⟨rfl, by simp, ?_, ?_, ?_, ?_, ?_, ?_, ?_, ?_, ?_, ?_, ?_, ?_, ?_, ?_, ?_⟩, ?_, ?_⟩ <;> simp

theorem not_mem_of (h : (s.active ++ (s.ending ++ s.pool)).Nodup) {a : Nat} :
    (a ∈ s.active → a ∉ s.ending ∧ a ∉ s.pool) ∧ (a ∈ s.ending → a ∉ s.active ∧ a ∉ s.pool) ∧ (a ∈ s.pool → a ∉ s.active ∧ a ∉ s.ending) := by
  simp only [List.nodup_append, List.mem_append] at h
  grind

theorem exit_inv (h : Inv s) {a : Nat} (ha : a ∈ s.active) : Inv { release_ s a with active := s.active.filter (· ≠ a), ending := a :: s.ending } := by
  obtain ⟨c, hc⟩ := h.own.isco a (by simp [ha])
  obtain ⟨h1, ⟨d, h2, h3, h4⟩, h5⟩ := release__own h.own hc
  have hF : Fr s (release_ s a) := .release_
  have hn := h.own.nd
  have hd := (not_mem_of hn (a := a)).1 ha
  have hk : ∀ b, b ∈ s.active ++ (s.ending ++ s.pool) → b ≠ a → Keep s (release_ s a) b := by
    intro b hb hne
    obtain ⟨c, hc⟩ := h.own.isco b hb
    exact h5 b c hc hne
  refine ⟨?_, ?_, ?_⟩
  · simp only [hF.pool, hF.refs]
    refine Own.fr (s := release_ s a) (h1.perm ?_ ?_) rfl rfl rfl
    · simp only [List.nodup_append, List.mem_append, List.nodup_cons, List.mem_cons, List.mem_filter] at hn ⊢
      have := hn.1.filter (fun x => decide (x ≠ a))
      grind
    · intro x
      simp only [List.mem_append, List.mem_cons, List.mem_filter, decide_eq_true_eq]
      grind
  · intro b hb e he
    simp only [hF.pool, List.cons_append, List.mem_cons] at hb he
    rcases hb with rfl | hb
    · rw [h2] at he; cases he; exact ⟨h3, h4⟩
    · have hne : b ≠ a := by rintro rfl; simp at hb; grind
      rw [(hk b (List.mem_append_right _ hb) hne).1] at he
      exact h.idle b hb e he
  · intro b hb
    simp only [List.mem_filter, decide_eq_true_eq] at hb
    refine (h.seen b hb.1).keep (s := s) (hk b (List.mem_append_left _ hb.1) hb.2) ?_
    simp only [hF.given]

theorem exit2_inv (h : Inv s) {a : Nat} (ha : a ∈ s.ending) : Inv (release_ s a) := by
  obtain ⟨c, hc⟩ := h.own.isco a (by simp [ha])
  obtain ⟨h1, ⟨d, h2, h3, h4⟩, h5⟩ := release__own h.own hc
  have hF : Fr s (release_ s a) := .release_
  have hd := (not_mem_of h.own.nd (a := a)).2.1 ha
  have hk : ∀ b, b ∈ s.active ++ (s.ending ++ s.pool) → b ≠ a → Keep s (release_ s a) b := by
    intro b hb hne
    obtain ⟨c, hc⟩ := h.own.isco b hb
    exact h5 b c hc hne
  refine ⟨?_, ?_, ?_⟩
  · rw [hF.active, hF.ending, hF.pool, hF.refs]; exact h1
  · intro b hb e he
    rw [hF.ending, hF.pool] at hb
    by_cases hba : b = a
    · subst hba; rw [h2] at he; cases he; exact ⟨h3, h4⟩
    · rw [(hk b (List.mem_append_right _ hb) hba).1] at he
      exact h.idle b hb e he
  · intro b hb
    rw [hF.active] at hb
    have hne : b ≠ a := by rintro rfl; exact hd.1 hb
    exact (h.seen b hb).keep (hk b (List.mem_append_left _ hb) hne) (by rw [hF.given])

theorem cleanup_inv (h : Inv s) {a : Nat} (ha : a ∈ s.ending) : Inv { s with ending := s.ending.filter (· ≠ a), pool := s.pool ++ [a] } := by
  have hn := h.own.nd
  refine ⟨?_, ?_, ?_⟩
  · refine Own.fr (s := s) (h.own.perm ?_ ?_) rfl rfl rfl
    · simp only [List.nodup_append, List.mem_append, List.nodup_cons, List.mem_cons, List.mem_filter] at hn ⊢
      have := hn.2.1.1.filter (fun x => decide (x ≠ a))
      grind
    · intro x
      simp only [List.mem_append, List.mem_cons, List.mem_filter, decide_eq_true_eq]
      grind
  · intro b hb
    refine h.idle b ?_
    simp only [List.mem_append, List.mem_cons, List.mem_filter, decide_eq_true_eq] at hb ⊢
    grind
  · exact h.seen

theorem freeAll_inv (h : Inv s) {l r : List Nat} (e : s.pool = l ++ r) {u : S} (hu : u = { freeAll s l with pool := r }) : Inv u := by
  subst hu
  have hn := h.own.nd
  have hF : Fr s (freeAll s l) := .freeAll
  have hnl : l.Nodup := by
    rw [e] at hn
    simp only [List.nodup_append] at hn
    exact hn.2.1.2.1.1
  obtain ⟨h1, h2⟩ := freeAll_own (l := l) h.own hnl (fun a ha => by
    have hm : a ∈ s.ending ++ s.pool := by rw [e]; simp [ha]
    obtain ⟨c, hc⟩ := h.own.isco a (List.mem_append_right _ hm)
    exact ⟨c, hc, (h.idle a hm c hc).2⟩)
  rw [e] at hn
  have hk : ∀ b, b ∈ s.active ++ (s.ending ++ r) → Keep s (freeAll s l) b := by
    intro b hb
    obtain ⟨c, hc⟩ := h.own.isco b (by rw [e]; simp only [List.mem_append] at hb ⊢; grind)
    refine h2 b c hc ?_
    simp only [List.nodup_append, List.mem_append] at hn hb
    grind
  refine ⟨?_, ?_, ?_⟩
  · simp only [hF.active, hF.ending, hF.refs]
    refine Own.fr (s := freeAll s l) (h1.perm ?_ ?_) rfl rfl rfl
    · simp only [List.nodup_append, List.mem_append] at hn ⊢
      grind
    · intro x
      rw [e]
      simp only [List.nodup_append, List.mem_append, List.mem_filter, decide_eq_true_eq] at hn ⊢
      grind
  · intro b hb c hc
    simp only [hF.ending] at hb hc
    rw [(hk b (List.mem_append_right _ hb)).1] at hc
    refine h.idle b ?_ c hc
    rw [e]; simp only [List.mem_append] at hb ⊢; grind
  · intro b hb
    simp only [hF.active] at hb
    refine (h.seen b hb).keep (s := s) (hk b (List.mem_append_left _ hb)) ?_
    simp only [hF.given]

/-- the block of a generator that the user still holds -/
theorem ref_block (h : Own s A ref) {g : Nat} (hr : 0 < ref g) : s.heap g = some (.chan (ref g)) ∨ s.heap g = some (.chan (ref g + 1)) := by
  have h1 := h.rf g hr
  have h2 := h.och g
  grind

theorem gref_inv (h : Inv s) {g k : Nat} {u t : S} (hr : 0 < s.refs g) (hF : Fr s u) (hf : u.fault = false) (hn : u.next = s.next)
    (e : ∀ x, u.heap x = if x = g then (if k = 0 ∧ s.heap g = some (.chan (s.refs g)) then none else if s.heap g = some (.chan (s.refs g)) then some (.chan k) else some (.chan (k + 1))) else s.heap x)
    (ht : t = { u with refs := fun x => if x = g then k else s.refs x }) : Inv t := by
  subst ht
  have hk : ∀ b, b ∈ s.active ++ (s.ending ++ s.pool) → Keep s u b := by
    intro b hb
    obtain ⟨c, hc⟩ := h.own.isco b hb
    have hg := ref_block h.own hr
    refine ⟨by rw [e]; grind, fun c' p' hc' hp' => ?_⟩
    obtain ⟨l, h1⟩ := h.own.ar b c' p' hc' hp'
    rw [e]; grind
  have h1 := own_refs h.own hr hf hn e
  refine ⟨?_, ?_, ?_⟩
  · simp only [hF.active, hF.ending, hF.pool]
    exact h1.fr rfl rfl rfl
  · intro b hb c hc
    simp only [hF.ending, hF.pool] at hb hc
    rw [(hk b (List.mem_append_right _ hb)).1] at hc
    exact h.idle b hb c hc
  · intro b hb
    simp only [hF.active] at hb
    exact (h.seen b hb).keep (s := s) (hk b (List.mem_append_left _ hb)) (by simp only [hF.given])

theorem Inv.step (h : Inv s) {x : Act} (hs : Args.step s x = some t) : Inv t := by
  have hf := h.own.flt
  unfold Args.step at hs
  split at hs
  · cases hs
  cases x with
  | start args gen m => cases hs; exact (start_inv h args gen m).1
  | exit a =>
    simp only at hs
    split at hs
    · cases hs; rename_i ha; exact exit_inv h ha
    · split at hs
      · cases hs; rename_i ha; exact exit2_inv h ha
      · cases hs
  | cleanup a =>
    simp only at hs
    split at hs
    · cases hs; rename_i ha; exact cleanup_inv h ha
    · cases hs
  | rc n => cases hs; exact freeAll_inv h (List.take_append_drop n s.pool).symm rfl
  | gretain g =>
    simp only at hs
    split at hs
    · rename_i hr
      cases hs
      have hb := ref_block h.own hr
      refine gref_inv h (g := g) (k := s.refs g + 1) (u := retain s g) hr .retain ?_ ?_ ?_ ?_
      · unfold retain; rcases hb with hb | hb <;> rw [hb] <;> exact hf
      · unfold retain; rcases hb with hb | hb <;> rw [hb] <;> rfl
      · intro x
        unfold retain; rcases hb with hb | hb <;> rw [hb] <;> simp
      · congr 1; funext x; split
        · rename_i hx; rw [hx]
        · rfl
    · cases hs
  | grelease g =>
    simp only at hs
    split at hs
    · rename_i hr
      cases hs
      have hb := ref_block h.own hr
      have hfree : ∀ b, s.heap g = some b → free s g = set s g none := fun b hb => free_eq hb
      refine gref_inv h (g := g) (k := s.refs g - 1) (u := release s g) hr .release ?_ ?_ ?_ ?_
      · unfold release; rcases hb with hb | hb <;> rw [hb] <;> simp only <;> split
        · rw [hfree _ hb]; exact hf
        · exact hf
        · rw [hfree _ hb]; exact hf
        · exact hf
      · unfold release; rcases hb with hb | hb <;> rw [hb] <;> simp only <;> split
        · rw [hfree _ hb]; rfl
        · rfl
        · rw [hfree _ hb]; rfl
        · rfl
      · intro x
        unfold release; rcases hb with hb | hb <;> rw [hb] <;> simp only <;> split
        · rw [hfree _ hb]; simp; grind
        · simp; grind
        · omega
        · simp; grind
      · congr 1; funext x; split
        · rename_i hx; rw [hx]
        · rfl
    · cases hs
  | finish =>
    simp only at hs
    split at hs
    · cases hs
      have h1 := freeAll_inv h (l := s.pool) (r := []) (by simp) rfl
      exact ⟨h1.own.fr rfl rfl rfl, h1.idle, h1.seen⟩
    · cases hs

theorem reach_inv (r : Reach s) : Inv s := by
  induction r with
  | init => exact inv_init
  | step _ x hs ih => exact ih.step hs

end Neco.Args
