import Verif.Spec.Sigq
/-!
# C76: signals between the handler and the main loop
-/
namespace Neco.Sigq

@[simp] theorem set_eq {α : Type} (f : Nat → α) (n : Nat) (v : α) : set f n v n = v := by simp [set]
theorem set_ne {α : Type} (f : Nat → α) {n k : Nat} (v : α) (h : k ≠ n) : set f n v k = f k := by simp [set, h]

theorem look_spec {s s' : S} {n : Nat} (hs : step s (.look n) = some s') : s.main = .idle ∧ s.frames = [] ∧ Looks s ∧ n < 32 ∧ s.q n ≠ 0 ∧ s' = { s with main := .ldQ n } := by
  unfold step at hs
  dsimp only at hs
  split at hs
  · next h1 h2 =>
    split at hs
    · next h => cases hs; exact ⟨h1, h2, by have := h.1; rw [List.any_eq_true] at this; obtain ⟨k, a, b⟩ := this; exact ⟨k, List.mem_range.1 a, b⟩, h.2.1, h.2.2, rfl⟩
    · cases hs
  · cases hs

/-! ## Counting -/

/-- handlers of `n` that are running -/
def act (n : Nat) (l : List Frame) : Nat := l.countP (fun f => f.n == n)

theorem act_cons (n : Nat) (f : Frame) (l : List Frame) : act n (f :: l) = act n l + if f.n = n then 1 else 0 := by
  unfold act; rw [List.countP_cons]; simp

structure Inv (n : Nat) (s : S) : Prop where
  cnt : s.arr n = s.tak n + s.q n + act n s.frames
  one : act n s.frames ≤ 1
  frm : ∀ f ∈ s.frames, f.n = n → ∀ v, f.pc = .stQ v → v = s.q n
  mst : ∀ v, s.main = .stQ n v → v = s.q n ∧ 1 ≤ v ∧ act n s.frames = 0
  mld : s.main = .ldQ n → 1 ≤ s.q n

theorem act_zero {n : Nat} {l : List Frame} (h : act n l = 0) : ∀ f ∈ l, f.n ≠ n := by
  intro f hf e
  have := List.countP_eq_zero.1 h f hf
  simp [e] at this

theorem inv_step {n : Nat} {s s' : S} {a : Act} (h : Inv n s) (hok : CalmQ n s a) (hs : step s a = some s') : Inv n s' := by
  obtain ⟨h1, h2, h3, h4, h5⟩ := h
  cases a with
  | sig m =>
    unfold step at hs; dsimp only at hs
    split at hs <;> cases hs
    next hm =>
    refine ⟨?_, ?_, ?_, ?_, h5⟩
    · dsimp only; rw [act_cons]; dsimp only
      by_cases e : m = n
      · subst e; rw [set_eq, if_pos rfl]; omega
      · rw [set_ne _ _ (Ne.symm e), if_neg e]; omega
    · dsimp only; rw [act_cons]; dsimp only
      split
      · next e =>
        have : act n s.frames = 0 := List.countP_eq_zero.2 fun f hf => by subst e; simpa using hm.2 f hf
        omega
      · omega
    · intro f hf e v hv
      rcases List.mem_cons.1 hf with rfl | hf
      · cases hv
      · exact h3 f hf e v hv
    · intro v hv
      dsimp only; rw [act_cons, if_neg]
      · exact h4 v hv
      · dsimp only; rintro rfl; exact hok rfl v hv
  | look m =>
    obtain ⟨e1, e2, _, _, e3, rfl⟩ := look_spec hs
    refine ⟨h1, h2, h3, (fun v hv => by cases hv), ?_⟩
    intro hv; cases hv; exact Nat.pos_of_ne_zero e3
  | run =>
    unfold step at hs; dsimp only at hs
    split at hs
    · next f r hf =>
      cases hs
      rw [hf] at h1 h2 h3
      rw [act_cons] at h1 h2
      have h4' : ∀ v, s.main = .stQ n v → v = s.q n ∧ 1 ≤ v ∧ f.n ≠ n ∧ act n r = 0 := by
        intro v hv
        obtain ⟨a1, a2, a3⟩ := h4 v hv
        rw [hf, act_cons] at a3
        refine ⟨a1, a2, ?_, by omega⟩
        intro e; rw [if_pos e] at a3; omega
      unfold stepH
      split
      · refine ⟨by dsimp only; rw [act_cons]; exact h1, by dsimp only; rw [act_cons]; exact h2, ?_, ?_, h5⟩
        · intro g hg e v hv
          rcases List.mem_cons.1 hg with rfl | hg
          · cases hv
          · exact h3 g (.tail _ hg) e v hv
        · intro v hv; obtain ⟨a1, a2, a3, a4⟩ := h4' v hv
          exact ⟨a1, a2, by dsimp only; rw [act_cons]; dsimp only; rw [if_neg a3]; omega⟩
      · refine ⟨by dsimp only; rw [act_cons]; exact h1, by dsimp only; rw [act_cons]; exact h2, ?_, ?_, h5⟩
        · intro g hg e v hv
          rcases List.mem_cons.1 hg with rfl | hg
          · cases hv
          · exact h3 g (.tail _ hg) e v hv
        · intro v hv; obtain ⟨a1, a2, a3, a4⟩ := h4' v hv
          exact ⟨a1, a2, by dsimp only; rw [act_cons]; dsimp only; rw [if_neg a3]; omega⟩
      · refine ⟨by dsimp only; rw [act_cons]; exact h1, by dsimp only; rw [act_cons]; exact h2, ?_, ?_, h5⟩
        · intro g hg e v hv
          rcases List.mem_cons.1 hg with rfl | hg
          · dsimp only at e hv; subst e; cases hv; rfl
          · exact h3 g (.tail _ hg) e v hv
        · intro v hv; obtain ⟨a1, a2, a3, a4⟩ := h4' v hv
          exact ⟨a1, a2, by dsimp only; rw [act_cons]; dsimp only; rw [if_neg a3]; omega⟩
      · next w hp =>
        by_cases e : f.n = n
        · have hv := h3 f (.head _) e w hp
          rw [if_pos e] at h1 h2
          subst e
          have h0 : act f.n r = 0 := by omega
          refine ⟨by dsimp only; rw [set_eq]; omega, by dsimp only; omega, ?_, ?_, ?_⟩
          · intro g hg e' v _; exact absurd e' (act_zero h0 g hg)
          · intro v hv'; exact absurd rfl (h4' v hv').2.2.1
          · intro _; dsimp only; rw [set_eq]; omega
        · rw [if_neg e] at h1 h2
          refine ⟨by dsimp only; rw [set_ne _ _ (Ne.symm e)]; exact h1, by dsimp only; omega, ?_, ?_, ?_⟩
          · intro g hg e' v hv; dsimp only; rw [set_ne _ _ (Ne.symm e)]; exact h3 g (.tail _ hg) e' v hv
          · intro v hv; dsimp only; rw [set_ne _ _ (Ne.symm e)]; obtain ⟨a1, a2, _, a4⟩ := h4' v hv; exact ⟨a1, a2, a4⟩
          · intro hv; dsimp only; rw [set_ne _ _ (Ne.symm e)]; exact h5 hv
    · next hf =>
      rw [hf] at h1
      have ha : act n ([] : List Frame) = 0 := rfl
      unfold stepM at hs
      split at hs
      · cases hs
      · next m hm =>
        cases hs
        refine ⟨by dsimp only; rw [hf]; exact h1, by dsimp only; rw [hf]; simp [ha], by dsimp only; rw [hf]; simp, ?_, by simp⟩
        intro v hv; cases hv
        exact ⟨rfl, h5 hm, by dsimp only; rw [hf]; rfl⟩
      · next m v hm =>
        cases hs
        refine ⟨?_, by dsimp only; rw [hf]; simp [ha], by dsimp only; rw [hf]; simp, by simp, by simp⟩
        dsimp only; rw [hf]
        by_cases e : m = n
        · subst e; rw [set_eq, set_eq]; obtain ⟨a1, a2, _⟩ := h4 v hm; omega
        · rw [set_ne _ _ (Ne.symm e), set_ne _ _ (Ne.symm e)]; exact h1
      · next m hm =>
        cases hs
        refine ⟨by dsimp only; rw [hf]; exact h1, by dsimp only; rw [hf]; simp [ha], by dsimp only; rw [hf]; simp, ?_, ?_⟩ <;> dsimp only <;> split <;> simp
      · cases hs
        exact ⟨by dsimp only; rw [hf]; exact h1, by dsimp only; rw [hf]; simp [ha], by dsimp only; rw [hf]; simp, by simp, by simp⟩
      · cases hs
        exact ⟨by dsimp only; rw [hf]; exact h1, by dsimp only; rw [hf]; simp [ha], by dsimp only; rw [hf]; simp, by simp, by simp⟩

theorem reach_inv {n : Nat} {s : S} (r : Reach (CalmQ n) s) : Inv n s := by
  induction r with
  | init => exact ⟨rfl, Nat.zero_le _, fun f hf => (by cases hf), by simp, by simp⟩
  | step _ a hok hs ih => exact inv_step ih hok hs

/-- **C76**, no signal is lost: each arrival is taken out once, or is still queued, or its handler is still running. (Partial: provided the signal
does not arrive while the main loop takes one off the same queue, see `C76_lost_not_general`.) -/
theorem C76_count_partial {n : Nat} {s : S} (r : Reach (CalmQ n) s) : s.arr n = s.tak n + s.q n + act n s.frames := (reach_inv r).cnt

/-- **C76**, nothing is invented -/
theorem C76_rest_partial {n : Nat} {s : S} (r : Reach (CalmQ n) s) (h : s.frames = []) : s.arr n = s.tak n + s.q n := by
  have := C76_count_partial r; rw [h] at this; exact this

/-! ## The mask -/

structure InvM (s : S) : Prop where
  qm : ∀ n, s.q n ≠ 0 → s.mask n = true
  fr : ∀ f ∈ s.frames, (f.pc = .ldQ ∨ ∃ v, f.pc = .stQ v) → s.mask f.n = true
  fw : ∀ f ∈ s.frames, ∀ w, f.pc = .stMask w → w = s.mask
  fd : ∀ f r, s.frames = f :: r → ∀ g ∈ r, ∀ w, g.pc ≠ .stMask w
  mm : ∀ n v, s.main = .stQ n v → v ≠ 0 → s.mask n = true
  ml : ∀ n, s.main = .ldMask n → s.q n = 0 ∧ s.frames = []
  mw : ∀ n w, s.main = .stMask n w → w = s.mask ∧ s.q n = 0 ∧ s.frames = []

theorem invM_step {s s' : S} {a : Act} (h : InvM s) (hok : CalmM s a) (hs : step s a = some s') : InvM s' := by
  obtain ⟨h1, h2, h3, h4, h5, h6, h7⟩ := h
  cases a with
  | sig m =>
    unfold step at hs; dsimp only at hs
    split at hs <;> cases hs
    obtain ⟨c1, c2, c3⟩ := hok m rfl
    refine ⟨h1, ?_, ?_, ?_, h5, fun n hn => absurd hn (c1 n), fun n w hn => absurd hn (c2 n w)⟩
    · intro f hf hp
      rcases List.mem_cons.1 hf with rfl | hf
      · rcases hp with hp | ⟨_, hp⟩ <;> cases hp
      · exact h2 f hf hp
    · intro f hf w hp
      rcases List.mem_cons.1 hf with rfl | hf
      · cases hp
      · exact h3 f hf w hp
    · intro f r he g hg w
      cases he; exact c3 g hg w
  | look m =>
    obtain ⟨e1, e2, _, _, e3, rfl⟩ := look_spec hs
    exact ⟨h1, h2, h3, h4, by simp, by simp, by simp⟩
  | run =>
    unfold step at hs; dsimp only at hs
    split at hs
    · next f r hf =>
      cases hs
      have hd := h4 f r hf
      rw [hf] at h2 h3
      have n6 : ∀ n, s.main ≠ .ldMask n := fun n hn => by have := (h6 n hn).2; rw [hf] at this; cases this
      have n7 : ∀ n w, s.main ≠ .stMask n w := fun n w hn => by have := (h7 n w hn).2.2; rw [hf] at this; cases this
      have hd' : ∀ x : Frame, ∀ g r', x :: r = g :: r' → ∀ k ∈ r', ∀ w, k.pc ≠ .stMask w := by
        intro x g r' he; cases he; exact hd
      unfold stepH
      split
      · refine ⟨h1, ?_, ?_, hd' _, h5, fun n hn => absurd hn (n6 n), fun n w hn => absurd hn (n7 n w)⟩
        · intro g hg hp
          rcases List.mem_cons.1 hg with rfl | hg
          · rcases hp with hp | ⟨_, hp⟩ <;> cases hp
          · exact h2 g (.tail _ hg) hp
        · intro g hg w hp
          rcases List.mem_cons.1 hg with rfl | hg
          · cases hp; rfl
          · exact absurd hp (hd g hg w)
      · next w hp =>
        have hw := h3 f (.head _) w hp
        subst hw
        have mono : ∀ k, s.mask k = true → set s.mask f.n true k = true := by
          intro k hk; unfold set; split <;> simp [hk]
        refine ⟨fun n hn => mono n (h1 n hn), ?_, ?_, hd' _, fun n v hn hv => mono n (h5 n v hn hv), fun n hn => absurd hn (n6 n), fun n w hn => absurd hn (n7 n w)⟩
        · intro g hg hp
          rcases List.mem_cons.1 hg with rfl | hg
          · dsimp only; rw [set_eq]
          · exact mono _ (h2 g (.tail _ hg) hp)
        · intro g hg w hp
          rcases List.mem_cons.1 hg with rfl | hg
          · cases hp
          · exact absurd hp (hd g hg w)
      · next hp =>
        refine ⟨h1, ?_, ?_, hd' _, h5, fun n hn => absurd hn (n6 n), fun n w hn => absurd hn (n7 n w)⟩
        · intro g hg hp'
          rcases List.mem_cons.1 hg with rfl | hg
          · exact h2 f (.head _) (.inl hp)
          · exact h2 g (.tail _ hg) hp'
        · intro g hg w hp'
          rcases List.mem_cons.1 hg with rfl | hg
          · cases hp'
          · exact absurd hp' (hd g hg w)
      · next v hp =>
        refine ⟨?_, fun g hg => h2 g (.tail _ hg), fun g hg => h3 g (.tail _ hg), ?_, h5, fun n hn => absurd hn (n6 n), fun n w hn => absurd hn (n7 n w)⟩
        · intro n hn
          dsimp only at hn ⊢
          by_cases e : n = f.n
          · subst e; exact h2 f (.head _) (.inr ⟨v, hp⟩)
          · rw [set_ne _ _ e] at hn; exact h1 n hn
        · intro g r' he k hk
          dsimp only at he
          exact hd k (by rw [he]; exact .tail _ hk)
    · next hf =>
      unfold stepM at hs
      split at hs
      · cases hs
      · next m hm =>
        cases hs
        refine ⟨h1, h2, h3, h4, ?_, by simp, by simp⟩
        intro n v hv hne; cases hv; exact h1 _ hne
      · next m v hm =>
        cases hs
        refine ⟨?_, h2, h3, h4, by simp, by simp, by simp⟩
        intro n hn
        dsimp only at hn ⊢
        by_cases e : n = m
        · subst e; rw [set_eq] at hn; exact h5 _ v hm (by omega)
        · rw [set_ne _ _ e] at hn; exact h1 n hn
      · next m hm =>
        cases hs
        refine ⟨h1, h2, h3, h4, ?_, ?_, ?_⟩
        · intro n v hn; dsimp only at hn; split at hn <;> cases hn
        · intro n hn; dsimp only at hn; split at hn <;> cases hn
          exact ⟨by assumption, hf⟩
        · intro n v hn; dsimp only at hn; split at hn <;> cases hn
      · next m hm =>
        cases hs
        refine ⟨h1, h2, h3, h4, by simp, by simp, ?_⟩
        intro n w hn; cases hn; exact ⟨rfl, (h6 _ hm).1, hf⟩
      · next m w hm =>
        cases hs
        obtain ⟨rfl, e2, _⟩ := h7 m w hm
        refine ⟨?_, ?_, ?_, ?_, by simp, by simp, by simp⟩
        · intro n hn
          dsimp only at hn ⊢
          have : n ≠ m := by rintro rfl; exact hn e2
          rw [set_ne _ _ this]; exact h1 n hn
        all_goals (dsimp only; rw [hf]; simp)

theorem reach_invM {s : S} (r : Reach CalmM s) : InvM s := by
  induction r with
  | init => exact ⟨by simp, by simp, by simp, by simp, by simp, by simp, by simp⟩
  | step _ a hok hs ih => exact invM_step ih hok hs

/-- **C76**, no signal is overlooked: while one is queued the main loop looks at the queues. (Partial: provided no signal arrives in the two short stretches
of `CalmM`, see `C76_stuck_not_general`.) -/
theorem C76_looks_partial {s : S} (r : Reach CalmM s) {n : Nat} (hq : s.q n ≠ 0) : s.mask n = true := (reach_invM r).qm n hq

/-! ## No phantom -/

/-- a set bit has a reason -/
def Ph (s : S) (n : Nat) : Prop :=
  s.q n ≠ 0 ∨ (∃ f ∈ s.frames, f.n = n ∧ (f.pc = .ldQ ∨ ∃ v, f.pc = .stQ v)) ∨ s.main = .tst n ∨ s.main = .ldMask n ∨ ∃ w, s.main = .stMask n w

structure InvP (s : S) : Prop where
  mb : ∀ n, s.mask n = true → Ph s n
  fw : ∀ f ∈ s.frames, ∀ w, f.pc = .stMask w → ∀ n, w n = true → Ph s n
  mw : ∀ k w, s.main = .stMask k w → ∀ n, w n = true → Ph s n

theorem invP_step {s s' : S} {a : Act} (h : InvP s) (hs : step s a = some s') : InvP s' := by
  obtain ⟨h1, h2, h3⟩ := h
  cases a with
  | sig m =>
    unfold step at hs; dsimp only at hs
    split at hs <;> cases hs
    have k : ∀ n, Ph s n → Ph { s with frames := ⟨m, .ldMask⟩ :: s.frames, arr := set s.arr m (s.arr m + 1) } n := by
      rintro n (h | ⟨f, hf, h⟩ | h)
      · exact .inl h
      · exact .inr (.inl ⟨f, .tail _ hf, h⟩)
      · exact .inr (.inr h)
    refine ⟨fun n hn => k n (h1 n hn), ?_, fun a w ha n hn => k n (h3 a w ha n hn)⟩
    intro f hf w hp n hn
    rcases List.mem_cons.1 hf with rfl | hf
    · cases hp
    · exact k n (h2 f hf w hp n hn)
  | look m =>
    obtain ⟨e1, e2, _, _, e3, rfl⟩ := look_spec hs
    have k : ∀ n, Ph s n → Ph { s with main := .ldQ m } n := by
      rintro n (h | h | h)
      · exact .inl h
      · exact .inr (.inl h)
      · rw [e1] at h; simp at h
    exact ⟨fun n hn => k n (h1 n hn), fun f hf w hp n hn => k n (h2 f hf w hp n hn), by simp⟩
  | run =>
    unfold step at hs; dsimp only at hs
    split at hs
    · next f r hf =>
      cases hs
      rw [hf] at h2
      unfold stepH
      split
      · next hp =>
        have k : ∀ n, Ph s n → Ph { s with frames := ⟨f.n, .stMask s.mask⟩ :: r } n := by
          rintro n (h | ⟨g, hg, h⟩ | h)
          · exact .inl h
          · rw [hf] at hg
            rcases List.mem_cons.1 hg with rfl | hg
            · rw [hp] at h; rcases h.2 with h | ⟨_, h⟩ <;> cases h
            · exact .inr (.inl ⟨g, .tail _ hg, h⟩)
          · exact .inr (.inr h)
        refine ⟨fun n hn => k n (h1 n hn), ?_, fun a w ha n hn => k n (h3 a w ha n hn)⟩
        intro g hg w hp n hn
        rcases List.mem_cons.1 hg with rfl | hg
        · cases hp; exact k n (h1 n hn)
        · exact k n (h2 g (.tail _ hg) w hp n hn)
      · next w hp =>
        have k : ∀ n, Ph s n → Ph { s with mask := set w f.n true, frames := ⟨f.n, .ldQ⟩ :: r } n := by
          rintro n (h | ⟨g, hg, h⟩ | h)
          · exact .inl h
          · rw [hf] at hg
            rcases List.mem_cons.1 hg with rfl | hg
            · rw [hp] at h; rcases h.2 with h | ⟨_, h⟩ <;> cases h
            · exact .inr (.inl ⟨g, .tail _ hg, h⟩)
          · exact .inr (.inr h)
        refine ⟨?_, ?_, fun a w ha n hn => k n (h3 a w ha n hn)⟩
        · intro n hn
          by_cases e : n = f.n
          · exact .inr (.inl ⟨_, .head _, e.symm, .inl rfl⟩)
          · dsimp only at hn; rw [set_ne _ _ e] at hn
            exact k n (h2 f (.head _) w hp n hn)
        · intro g hg w hp n hn
          rcases List.mem_cons.1 hg with rfl | hg
          · cases hp
          · exact k n (h2 g (.tail _ hg) w hp n hn)
      · next hp =>
        have k : ∀ n, Ph s n → Ph { s with frames := ⟨f.n, .stQ (s.q f.n)⟩ :: r } n := by
          rintro n (h | ⟨g, hg, h⟩ | h)
          · exact .inl h
          · rw [hf] at hg
            rcases List.mem_cons.1 hg with rfl | hg
            · exact .inr (.inl ⟨_, .head _, h.1, .inr ⟨_, rfl⟩⟩)
            · exact .inr (.inl ⟨g, .tail _ hg, h⟩)
          · exact .inr (.inr h)
        refine ⟨fun n hn => k n (h1 n hn), ?_, fun a w ha n hn => k n (h3 a w ha n hn)⟩
        intro g hg w hp n hn
        rcases List.mem_cons.1 hg with rfl | hg
        · cases hp
        · exact k n (h2 g (.tail _ hg) w hp n hn)
      · next v hp =>
        have k : ∀ n, Ph s n → Ph { s with q := set s.q f.n (v + 1), frames := r } n := by
          intro n h
          by_cases e : n = f.n
          · left; dsimp only; rw [e, set_eq]; omega
          rcases h with h | ⟨g, hg, h⟩ | h
          · left; dsimp only; rw [set_ne _ _ e]; exact h
          · rw [hf] at hg
            rcases List.mem_cons.1 hg with rfl | hg
            · exact absurd h.1.symm e
            · exact .inr (.inl ⟨g, hg, h⟩)
          · exact .inr (.inr h)
        exact ⟨fun n hn => k n (h1 n hn), fun g hg w hp n hn => k n (h2 g (.tail _ hg) w hp n hn), fun a w ha n hn => k n (h3 a w ha n hn)⟩
    · next hf =>
      have nf : ∀ n, ¬ ∃ f ∈ s.frames, f.n = n ∧ (f.pc = .ldQ ∨ ∃ v, f.pc = .stQ v) := by rw [hf]; simp
      unfold stepM at hs
      split at hs
      · cases hs
      · next m hm =>
        cases hs
        have k : ∀ n, Ph s n → Ph { s with main := .stQ m (s.q m) } n := by
          rintro n (h | h | h)
          · exact .inl h
          · exact .inr (.inl h)
          · rw [hm] at h; simp at h
        exact ⟨fun n hn => k n (h1 n hn), fun f hf w hp n hn => k n (h2 f hf w hp n hn), by simp⟩
      · next m v hm =>
        cases hs
        refine ⟨?_, by dsimp only; rw [hf]; simp, by simp⟩
        intro n hn
        by_cases e : n = m
        · subst e; exact .inr (.inr (.inl rfl))
        · rcases h1 n hn with h | h | h
          · left; dsimp only; rw [set_ne _ _ e]; exact h
          · exact .inr (.inl h)
          · rw [hm] at h; simp at h
      · next m hm =>
        cases hs
        refine ⟨?_, by dsimp only; rw [hf]; simp, ?_⟩
        · intro n hn
          by_cases hz : s.q m = 0
          · rcases h1 n hn with h | h | h
            · exact .inl h
            · exact .inr (.inl h)
            · rw [hm] at h; simp at h; subst h
              exact .inr (.inr (.inr (.inl (by simp [hz]))))
          · rcases h1 n hn with h | h | h
            · exact .inl h
            · exact .inr (.inl h)
            · rw [hm] at h; simp at h; subst h
              exact .inl hz
        · intro k w hk; dsimp only at hk; split at hk <;> cases hk
      · next m hm =>
        cases hs
        have k : ∀ n, Ph s n → Ph { s with main := .stMask m s.mask } n := by
          rintro n (h | h | h)
          · exact .inl h
          · exact .inr (.inl h)
          · rw [hm] at h; simp at h; subst h
            exact .inr (.inr (.inr (.inr ⟨_, rfl⟩)))
        refine ⟨fun n hn => k n (h1 n hn), by dsimp only; rw [hf]; simp, ?_⟩
        intro a w ha n hn; cases ha; exact k n (h1 n hn)
      · next m w hm =>
        cases hs
        refine ⟨?_, by dsimp only; rw [hf]; simp, by simp⟩
        intro n hn
        dsimp only at hn
        by_cases e : n = m
        · subst e; rw [set_eq] at hn; cases hn
        · rw [set_ne _ _ e] at hn
          rcases h3 m w hm n hn with h | h | h
          · exact .inl h
          · exact .inr (.inl h)
          · rw [hm] at h; simp at h; exact absurd h.symm e

theorem reach_invP {ok} {s : S} (r : Reach ok s) : InvP s := by
  induction r with
  | init => exact ⟨by simp, by simp, by simp⟩
  | step _ a hok hs ih => exact invP_step ih hs

/-- **C76**, no phantom: whatever arrives when, once no handler runs and the main loop is between two signals, every bit of the mask stands for a signal that is
queued; so the mask alone never keeps the main loop from sleeping -/
theorem C76_no_phantom {ok} {s : S} (r : Reach ok s) (h : AtRest s) {n : Nat} (hn : s.mask n = true) : s.q n ≠ 0 := by
  rcases (reach_invP r).mb n hn with a | ⟨f, hf, _⟩ | a
  · exact a
  · rw [h.1] at hf; cases hf
  · rw [h.2] at a; simp at a

/-- **C76**: together, at rest the main loop looks at the queues exactly while a signal that arrived is not taken out. (Partial: under both conditions.) -/
theorem C76_pending_partial {s : S} (r : Reach (fun s a => CalmM s a ∧ ∀ n, CalmQ n s a) s) (h : AtRest s) (n : Nat) : s.mask n = true ↔ s.tak n < s.arr n := by
  have r1 : Reach CalmM s := r.mono fun _ _ h => h.1
  have r2 : Reach (CalmQ n) s := r.mono fun _ _ h => h.2 n
  have hc := C76_rest_partial r2 h.1
  constructor
  · intro hm; have := C76_no_phantom r h hm; omega
  · intro hm; exact C76_looks_partial r1 (by omega)

/-! ## What goes wrong -/

theorem run_reach {ok : S → Act → Prop} {s t : S} {l : List Act} (h : ∀ s a, ok s a) (r : Reach ok s) (hr : run s l = some t) : Reach ok t := by
  induction l generalizing s with
  | nil => cases hr; exact r
  | cons a l ih =>
    unfold run at hr
    split at hr
    · next u hu => exact ih (r.step a (h _ _) hu) hr
    · cases hr

/-- the handler from start to end -/
def handler (n : Nat) : List Act := [.sig n, .run, .run, .run, .run]

/-- SIGUSR1 arrives; the main loop takes it out, reading the queue; then it arrives again before the queue is written back -/
def lostRun : List Act := handler 10 ++ [.look 10, .run] ++ handler 10 ++ [.run, .run, .run, .run]
/-- SIGUSR1 arrives; the main loop takes it out and finds the queue empty; then it arrives again before the bit is cleared -/
def stuckRun : List Act := handler 10 ++ [.look 10, .run, .run, .run] ++ handler 10 ++ [.run, .run]

/-- **C76**, negative: a signal that arrives while the main loop takes one off the same queue is lost: two arrived, one was taken out, none is left -/
theorem C76_lost_not_general : ∃ s, Reach (fun _ _ => True) s ∧ AtRest s ∧ s.arr 10 = 2 ∧ s.tak 10 = 1 ∧ s.q 10 = 0 := by
  have h : (run {} lostRun).any (fun s => s.frames.isEmpty && (match s.main with | .idle => true | _ => false) && s.arr 10 == 2 && s.tak 10 == 1 && s.q 10 == 0) = true := by decide +kernel
  cases hr : run {} lostRun with
  | none => rw [hr] at h; cases h
  | some s =>
    rw [hr] at h
    simp only [Option.any_some, Bool.and_eq_true, beq_iff_eq, List.isEmpty_iff] at h
    obtain ⟨⟨⟨⟨h1, h2⟩, h3⟩, h4⟩, h5⟩ := h
    refine ⟨s, run_reach (fun _ _ => trivial) .init hr, ⟨h1, ?_⟩, h3, h4, h5⟩
    revert h2; cases s.main <;> simp

/-- with a zero mask and nothing arriving the main loop does nothing, however often it comes round -/
theorem stuck {s t : S} {l : List Act} (h : AtRest s) (hm : ∀ n, n < 32 → s.mask n = false) (hl : ∀ a ∈ l, ∀ n, a ≠ .sig n) (hr : run s l = some t) : l = [] ∧ t = s := by
  cases l with
  | nil => cases hr; exact ⟨rfl, rfl⟩
  | cons a l =>
    exfalso
    unfold run at hr
    split at hr
    · next u hu =>
      cases a with
      | sig n => exact hl _ (.head _) n rfl
      | run => unfold step stepM at hu; rw [h.1, h.2] at hu; cases hu
      | look n =>
        obtain ⟨_, _, ⟨k, hk, hk'⟩, _⟩ := look_spec hu
        rw [hm k hk] at hk'; cases hk'
    · cases hr

/-- **C76**, negative: a signal that arrives after the main loop has found the queue empty and before it has cleared the bit stays queued with the bit cleared: it is
not handed to anybody, whoever waits for it, until some signal arrives again -/
theorem C76_stuck_not_general : ∃ s, Reach (fun _ _ => True) s ∧ AtRest s ∧ s.arr 10 = 2 ∧ s.tak 10 = 1 ∧ s.q 10 = 1 ∧ ¬ Looks s ∧
    ∀ l t, (∀ a ∈ l, ∀ n, a ≠ .sig n) → run s l = some t → t = s := by
  have h : (run {} stuckRun).any (fun s => s.frames.isEmpty && (match s.main with | .idle => true | _ => false) && s.arr 10 == 2 && s.tak 10 == 1 && s.q 10 == 1 && (List.range 32).all (fun n => !s.mask n)) = true := by decide +kernel
  cases hr : run {} stuckRun with
  | none => rw [hr] at h; cases h
  | some s =>
    rw [hr] at h
    simp only [Option.any_some, Bool.and_eq_true, beq_iff_eq, List.isEmpty_iff] at h
    obtain ⟨⟨⟨⟨⟨h1, h2⟩, h3⟩, h4⟩, h5⟩, h6⟩ := h
    have hm : ∀ n, n < 32 → s.mask n = false := fun n hn => by simpa using List.all_eq_true.1 h6 n (List.mem_range.2 hn)
    have hrest : AtRest s := ⟨h1, by revert h2; cases s.main <;> simp⟩
    refine ⟨s, run_reach (fun _ _ => trivial) .init hr, hrest, h3, h4, h5, ?_, fun l t hl ht => (stuck hrest hm hl ht).2⟩
    rintro ⟨n, hn, hn'⟩; rw [hm n hn] at hn'; cases hn'

/-! ## The theorems are not about nothing -/

/-- both conditions, decidably -/
def calmB (s : S) : Act → Bool
  | .sig n => (match s.main with | .stQ k _ => k != n | .ldMask _ | .stMask _ _ => false | _ => true) && s.frames.all (fun f => match f.pc with | .stMask _ => false | _ => true)
  | _ => true

theorem calmB_ok {s : S} {a : Act} (h : calmB s a = true) : CalmM s a ∧ ∀ n, CalmQ n s a := by
  cases a with
  | sig n =>
    simp only [calmB, Bool.and_eq_true, List.all_eq_true] at h
    obtain ⟨h1, h2⟩ := h
    refine ⟨fun m _ => ⟨?_, ?_, ?_⟩, fun m e v hv => ?_⟩
    · intro k hk; rw [hk] at h1; cases h1
    · intro k w hk; rw [hk] at h1; cases h1
    · intro f hf w hw; have := h2 f hf; rw [hw] at this; cases this
    · cases e; rw [hv] at h1; simp at h1
  | _ => exact ⟨(fun n e => by cases e), (fun n e => by cases e)⟩

def runB (s : S) : List Act → Option S
  | [] => some s
  | a :: as => if calmB s a then match step s a with | some t => runB t as | none => none else none

theorem runB_reach {s t : S} {l : List Act} (r : Reach (fun s a => CalmM s a ∧ ∀ n, CalmQ n s a) s) (h : runB s l = some t) : Reach (fun s a => CalmM s a ∧ ∀ n, CalmQ n s a) t := by
  induction l generalizing s with
  | nil => cases h; exact r
  | cons a l ih =>
    unfold runB at h
    split at h
    · next hc =>
      split at h
      · next u hu => exact ih (r.step a (calmB_ok hc) hu) h
      · cases h
    · cases h

/-- SIGUSR1 arrives, and in the middle of its handler SIGUSR2; the main loop takes SIGUSR1 out, during which SIGUSR2 comes again; then SIGUSR1 comes again:
both conditions hold, two SIGUSR2 and one SIGUSR1 are still to be taken out -/
example : ∃ s, Reach (fun s a => CalmM s a ∧ ∀ n, CalmQ n s a) s ∧ AtRest s ∧ s.arr 10 = 2 ∧ s.tak 10 = 1 ∧ s.q 10 = 1 ∧ s.q 12 = 2 ∧ s.mask 10 = true ∧ s.mask 12 = true := by
  have h : (runB {} ([.sig 10, .run, .run, .run] ++ handler 12 ++ [.run, .look 10, .run] ++ handler 12 ++ [.run, .run, .run, .run] ++ handler 10)).any
      (fun s => s.frames.isEmpty && (match s.main with | .idle => true | _ => false) && s.arr 10 == 2 && s.tak 10 == 1 && s.q 10 == 1 && s.q 12 == 2 && s.mask 10 && s.mask 12) = true := by decide +kernel
  cases hr : runB {} ([.sig 10, .run, .run, .run] ++ handler 12 ++ [.run, .look 10, .run] ++ handler 12 ++ [.run, .run, .run, .run] ++ handler 10) with
  | none => rw [hr] at h; cases h
  | some s =>
    rw [hr] at h
    simp only [Option.any_some, Bool.and_eq_true, beq_iff_eq, List.isEmpty_iff] at h
    obtain ⟨⟨⟨⟨⟨⟨⟨h1, h2⟩, h3⟩, h4⟩, h5⟩, h6⟩, h7⟩, h8⟩ := h
    refine ⟨s, runB_reach .init hr, ⟨h1, ?_⟩, h3, h4, h5, h6, h7, h8⟩
    revert h2; cases s.main <;> simp

end Neco.Sigq
