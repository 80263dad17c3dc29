import Verif.Proof.Args

/-! # What the operations do to memory -/

namespace Neco.Args

variable {s t : S} {A : List Nat} {ref : Nat → Nat}

/-- the control block `b` and its arguments are as before -/
def Keep (s t : S) (b : Nat) : Prop := t.heap b = s.heap b ∧ ∀ c p, s.heap b = some (.co c) → c.argv = .heap p → t.heap p = s.heap p
/-- all control blocks other than `a`, and their arguments, are as before -/
def Others (s t : S) (a : Nat) : Prop := ∀ b c, s.heap b = some (.co c) → b ≠ a → Keep s t b

theorem Keep.refl {b : Nat} : Keep s s b := ⟨rfl, fun _ _ _ _ => rfl⟩
theorem Keep.trans {u : S} {b : Nat} (h : Keep s t b) (g : Keep t u b) : Keep s u b := by
  refine ⟨g.1.trans h.1, fun c p hc hp => ?_⟩
  rw [g.2 c p (by rw [h.1]; exact hc) hp, h.2 c p hc hp]
theorem Others.refl {a : Nat} : Others s s a := fun _ _ _ _ => .refl
theorem Others.trans {u : S} {a : Nat} (h : Others s t a) (g : Others t u a) : Others s u a := by
  intro b c hc hb
  have h1 := h b c hc hb
  exact h1.trans (g b c (by rw [h1.1]; exact hc) hb)
theorem Keep.readArg {b : Nat} (h : Keep s t b) (i : Nat) : readArg t b i = readArg s b i := by
  unfold Args.readArg
  rw [h.1]
  split
  · rename_i c hc
    cases hp : c.argv with
    | null => rfl
    | inl => rfl
    | heap p => dsimp only; rw [h.2 c p hc hp]
  · rfl
theorem Keep.readArgc {b : Nat} (h : Keep s t b) : readArgc t b = readArgc s b := by unfold Args.readArgc; rw [h.1]

theorem freeArgs_own (h : Own s A ref) {a : Nat} {c : Co} (hc : s.heap a = some (.co c)) :
    Own (freeArgs s a) A ref ∧ (freeArgs s a).heap a = some (.co { c with argc := 0, argv := .null }) ∧ Others s (freeArgs s a) a ∧ (freeArgs s a).next = s.next ∧
    (∀ x rc, s.heap x = some (.chan rc) → (freeArgs s a).heap x = some (.chan rc)) ∧ ∀ x, s.heap x = some .stack → (freeArgs s a).heap x = some .stack := by
  have hl := h.len a c hc
  have key : freeArgs s a = match c.argv with
      | .heap p => set (set s p none) a (some (.co { c with argc := 0, argv := .null }))
      | _ => set s a (some (.co { c with argc := 0, argv := .null })) := by
    unfold freeArgs
    rw [hc]
    dsimp only
    cases hp : c.argv with
    | null => dsimp only; rw [mod_eq hc]
    | inl => dsimp only; rw [mod_eq hc]
    | heap p =>
      dsimp only
      obtain ⟨l, hl⟩ := h.ar a c p hc hp
      rw [free_eq hl, mod_eq (c := c)]
      simp; grind
  rw [key]
  cases hp : c.argv with
  | heap p =>
    obtain ⟨l, hl⟩ := h.ar a c p hc hp
    dsimp only
    refine ⟨own_freeArr h hc hp (d := { c with argc := 0, argv := .null }) (by simp) h.flt rfl (fun x => by simp), by simp, ?_, rfl, ?_, ?_⟩
    · intro b d hd hb
      refine ⟨by simp; grind, fun c' p' hc' hp' => ?_⟩
      have := h.iar a b c c' p hc hc'
      obtain ⟨l', hl'⟩ := h.ar b c' p' hc' hp'
      simp; grind
    · intro x rc hx; simp; grind
    · intro x hx; simp; grind
  | _ =>
    dsimp only
    refine ⟨own_inl h hc (d := { c with argc := 0, argv := .null }) (by simp [hp]) ⟨rfl, rfl, hl⟩ h.flt rfl (fun x => by simp), by simp, ?_, rfl, ?_, ?_⟩
    · intro b d hd hb
      refine ⟨by simp; grind, fun c' p' hc' hp' => ?_⟩
      obtain ⟨l, h1⟩ := h.ar b c' p' hc' hp'
      simp; grind
    · intro x rc hx; simp; grind
    · intro x hx; simp; grind

theorem coFree_own (h : Own s A ref) {a : Nat} {c : Co} (hc : s.heap a = some (.co c)) (hg : c.gen = none) :
    Own (coFree s a) (A.filter (· ≠ a)) ref ∧ (coFree s a).heap a = none ∧ Others s (coFree s a) a ∧ (coFree s a).next = s.next := by
  obtain ⟨h1, h2, h3, h4, _⟩ := freeArgs_own h hc
  have hst := h1.st a _ h2
  dsimp only at hst
  have key : coFree s a = set (set (freeArgs s a) c.stack none) a none := by
    unfold coFree
    dsimp only
    rw [h2]
    dsimp only
    rw [free_eq hst, free_eq (b := .co { c with argc := 0, argv := .null })]
    simp; grind
  rw [key]
  refine ⟨own_free h1 h2 hg (by simp) h1.flt rfl (fun x => by simp; grind), by simp, ?_, h4⟩
  refine h3.trans ?_
  intro b d hd hb
  refine ⟨by simp; grind, fun c' p' hc' hp' => ?_⟩
  obtain ⟨l, h5⟩ := h1.ar b c' p' hc' hp'
  simp; grind

theorem release_own (h : Own s A ref) {a g : Nat} {c : Co} (hc : s.heap a = some (.co c)) (hg : c.gen = some g) :
    Own (mod (release s g) a (fun c => { c with gen := none })) A ref ∧ (mod (release s g) a (fun c => { c with gen := none })).heap a = some (.co { c with gen := none }) ∧
    Others s (mod (release s g) a (fun c => { c with gen := none })) a := by
  have hgn := h.gn a c g hc hg
  have hne : a ≠ g := by rintro rfl; rw [hc] at hgn; cases hgn
  have key : release s g = set s g (if ref g = 0 then none else some (.chan (ref g))) := by
    unfold release
    rw [hgn]
    dsimp only
    by_cases h0 : ref g = 0
    · rw [if_pos (by omega), free_eq hgn, if_pos h0]
    · rw [if_neg (by omega), if_neg h0]; simp
  rw [key, mod_eq (c := c) (by simp [hne, hc])]
  refine ⟨own_dropGen h hc hg h.flt rfl (fun x => by simp), by simp, ?_⟩
  intro b d hd hb
  refine ⟨by simp; grind, fun c' p' hc' hp' => ?_⟩
  obtain ⟨l, h5⟩ := h.ar b c' p' hc' hp'
  simp; grind

theorem release__own (h : Own s A ref) {a : Nat} {c : Co} (hc : s.heap a = some (.co c)) :
    Own (release_ s a) A ref ∧ (∃ d, (release_ s a).heap a = some (.co d) ∧ d.argv = .null ∧ d.gen = none) ∧ Others s (release_ s a) a := by
  unfold release_
  rw [hc]
  dsimp only
  cases hg : c.gen with
  | none =>
    obtain ⟨h1, h2, h3, _⟩ := freeArgs_own h hc
    exact ⟨h1, ⟨_, h2, rfl, hg⟩, h3⟩
  | some g =>
    dsimp only
    obtain ⟨g1, g2, g3⟩ := release_own h hc hg
    obtain ⟨h1, h2, h3, _⟩ := freeArgs_own g1 g2
    exact ⟨h1, ⟨_, h2, rfl, rfl⟩, g3.trans h3⟩

theorem freeAll_own : ∀ {l : List Nat} {s : S} {A : List Nat} (_ : Own s A ref) (_ : l.Nodup) (_ : ∀ a ∈ l, ∃ c, s.heap a = some (.co c) ∧ c.gen = none),
    Own (freeAll s l) (A.filter (· ∉ l)) ref ∧ (∀ b c, s.heap b = some (.co c) → b ∉ l → Keep s (freeAll s l) b)
  | [], s, A, h, _, _ => ⟨by
    have e : A.filter (fun x => decide (x ∉ ([] : List Nat))) = A := List.filter_eq_self.mpr (by simp)
    rw [e]; exact h, fun _ _ _ _ => .refl⟩
  | a :: l, s, A, h, hn, hl => by
    obtain ⟨c, hc, hg⟩ := hl a (by simp)
    obtain ⟨h1, h2, h3, _⟩ := coFree_own h hc hg
    rw [List.nodup_cons] at hn
    obtain ⟨g1, g2⟩ := freeAll_own h1 hn.2 (fun b hb => by
      obtain ⟨d, hd, hdg⟩ := hl b (by simp [hb])
      have hne : b ≠ a := by rintro rfl; exact hn.1 hb
      exact ⟨d, by rw [(h3 b d hd hne).1]; exact hd, hdg⟩)
    refine ⟨?_, ?_⟩
    · rw [List.filter_filter] at g1
      have : (A.filter fun x => decide (x ∉ a :: l)) = A.filter (fun x => decide (x ∉ l) && decide (x ≠ a)) := by
        congr 1; funext x; simp [Bool.and_comm]
      rw [this]; exact g1
    · intro b d hd hb
      simp only [List.mem_cons, not_or] at hb
      have h5 := h3 b d hd hb.1
      exact h5.trans (g2 b d (by rw [h5.1]; exact hd) hb.2)

/-! ### Copying the arguments -/

theorem put_own (h : Own s A ref) {a i : Nat} {c : Co} {v : Int} (hc : s.heap a = some (.co c))
    (hi : (c.argv = .inl ∧ i < 4) ∨ ∃ p l, c.argv = .heap p ∧ s.heap p = some (.args l) ∧ i < l.length) :
    Own (put s a i v) A ref ∧ Others s (put s a i v) a ∧
    (∃ d, (put s a i v).heap a = some (.co d) ∧ d.argv = c.argv ∧ d.argc = c.argc ∧ (∀ p l, c.argv = .heap p → s.heap p = some (.args l) → (put s a i v).heap p = some (.args (l.set i (some v))))) ∧
    ∀ j, readArg (put s a i v) a j = if j = i then some v else readArg s a j := by
  have hl := h.len a c hc
  rcases hi with ⟨hp, hi⟩ | ⟨p, l, hp, hpl, hi⟩
  · have key : put s a i v = set s a (some (.co { c with aargv := c.aargv.set i (some v) })) := by
      unfold put; rw [hc]; dsimp only; rw [hp]; dsimp only
      rw [if_pos (by omega), mod_eq hc, hp]
    rw [key]
    refine ⟨own_inl h hc (d := { c with aargv := c.aargv.set i (some v) }) (by simp) ⟨rfl, rfl, by simpa using hl⟩ h.flt rfl (fun x => by simp), ?_, ⟨{ c with aargv := c.aargv.set i (some v) }, by simp, rfl, rfl, by simp [hp]⟩, ?_⟩
    · intro b d hd hb
      refine ⟨by simp; grind, fun c' p' hc' hp' => ?_⟩
      obtain ⟨l, h1⟩ := h.ar b c' p' hc' hp'
      simp; grind
    · intro j
      unfold readArg
      simp only [set_heap, ↓reduceIte, hp, hc]
      rw [List.getElem?_set]
      by_cases hj : i = j
      · subst hj; simp [hl, hi]
      · rw [if_neg hj, if_neg (by omega)]
  · have key : put s a i v = set s p (some (.args (l.set i (some v)))) := by
      unfold put; rw [hc]; dsimp only; rw [hp]; dsimp only; rw [hpl]; dsimp only
      rw [if_pos hi]
    have hne : a ≠ p := by rintro rfl; rw [hc] at hpl; cases hpl
    rw [key]
    refine ⟨own_arr h hpl (l' := l.set i (some v)) h.flt rfl (fun x => by simp), ?_, ⟨c, by simp [hne, hc], rfl, rfl, ?_⟩, ?_⟩
    · intro b d hd hb
      refine ⟨by simp; grind, fun c' p' hc' hp' => ?_⟩
      have := h.iar a b c c' p hc hc' hp
      simp; grind
    · intro p' l' e1 e2
      rw [hp] at e1; cases e1
      rw [hpl] at e2; cases e2
      simp
    · intro j
      unfold readArg
      simp only [set_heap, hne, ↓reduceIte, hp, hc, hpl]
      rw [List.getElem?_set]
      by_cases hj : i = j
      · subst hj; simp [hl, hi]
      · rw [if_neg hj, if_neg (by omega)]

theorem copy_own : ∀ {l : List Int} {s : S} {a i : Nat} {c : Co} (_ : Own s A ref) (_ : s.heap a = some (.co c))
    (_ : (c.argv = .inl ∧ i + l.length ≤ 4) ∨ ∃ p k, c.argv = .heap p ∧ s.heap p = some (.args k) ∧ i + l.length ≤ k.length),
    Own (copy s a i l) A ref ∧ Others s (copy s a i l) a ∧ (∃ d, (copy s a i l).heap a = some (.co d) ∧ d.argc = c.argc) ∧
    ∀ j, readArg (copy s a i l) a j = if j < i then readArg s a j else if j < i + l.length then l[j - i]? else readArg s a j
  | [], s, a, i, c, h, hc, _ => ⟨h, .refl, ⟨c, hc, rfl⟩, fun j => by simp only [copy, List.length_nil]; split; rfl; rw [if_neg (by omega)]⟩
  | v :: l, s, a, i, c, h, hc, hi => by
    obtain ⟨h1, h2, ⟨d, h3, h4, h5, h6⟩, h7⟩ := put_own (v := v) (i := i) h hc (by
      rcases hi with ⟨hp, hi⟩ | ⟨p, k, hp, hk, hi⟩
      · exact .inl ⟨hp, by simp at hi; omega⟩
      · exact .inr ⟨p, k, hp, hk, by simp at hi; omega⟩)
    obtain ⟨g1, g2, ⟨e, g3, g4⟩, g7⟩ := copy_own (l := l) (i := i + 1) h1 h3 (by
      rcases hi with ⟨hp, hi⟩ | ⟨p, k, hp, hk, hi⟩
      · exact .inl ⟨by rw [h4, hp], by simp at hi; omega⟩
      · exact .inr ⟨p, _, by rw [h4, hp], h6 p k hp hk, by simp at hi ⊢; omega⟩)
    refine ⟨g1, h2.trans g2, ⟨e, g3, by rw [g4, h5]⟩, fun j => ?_⟩
    simp only [copy]
    rw [g7, h7]
    simp only [List.length_cons]
    by_cases h1 : j < i
    · rw [if_pos (by omega), if_neg (by omega), if_pos h1]
    · by_cases h2 : j = i
      · subst h2
        rw [if_pos (by omega), if_pos rfl, if_neg h1, if_pos (by omega)]; simp
      · rw [if_neg (by omega), if_neg h1]
        by_cases h3 : j < i + (l.length + 1)
        · rw [if_pos (by omega), if_pos h3]
          have : j - i = (j - (i + 1)) + 1 := by omega
          rw [this, List.getElem?_cons_succ]
        · rw [if_neg (by omega), if_neg h2, if_neg h3]

end Neco.Args
