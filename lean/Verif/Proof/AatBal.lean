import Verif.Proof.Aat
/-! Balance of the AA tree. -/
namespace Neco.Aat
open Tree
variable {α : Type}

/-- level of the right child -/
def rlvl : Tree α → Nat
  | nil => 0
  | node _ _ _ r => r.lvl

/-- the AA tree invariant: left child one level below; right child one level below or on the same level,
and in the latter case its own right child is below -/
def AA : Tree α → Prop
  | nil => True
  | node l _ k r => AA l ∧ AA r ∧ l.lvl + 1 = k ∧ (r.lvl + 1 = k ∨ (r.lvl = k ∧ rlvl r < k))

@[simp] theorem lvl_nil : (nil : Tree α).lvl = 0 := rfl
@[simp] theorem lvl_node {l r : Tree α} {x : α} {k : Nat} : (node l x k r).lvl = k := rfl
@[simp] theorem rlvl_nil : rlvl (nil : Tree α) = 0 := rfl
@[simp] theorem rlvl_node {l r : Tree α} {x : α} {k : Nat} : rlvl (node l x k r) = r.lvl := rfl

theorem skew_ne {l r : Tree α} {x : α} {k : Nat} (h : l.lvl ≠ k) : skew (node l x k r) = node l x k r := by
  cases l with
  | nil => rfl
  | node a b c d => simp only [lvl_nil, lvl_node, rlvl_nil, rlvl_node] at h; simp [skew, h]

theorem split_ne {l r : Tree α} {x : α} {k : Nat} (h : rlvl r ≠ k) : split (node l x k r) = node l x k r := by
  cases r with
  | nil => rfl
  | node a b c d =>
    cases d with
    | nil => rfl
    | node e f g i => simp only [lvl_nil, lvl_node, rlvl_nil, rlvl_node] at h; simp [split, h]

theorem skew_eq {a b r : Tree α} {x y : α} {k : Nat} :
    skew (node (node a y k b) x k r) = node a y k (node b x k r) := by simp [skew]

theorem split_eq {l a b : Tree α} {x y : α} {k m : Nat} (h : b.lvl = k) (hk : 0 < k) :
    split (node l x k (node a y m b)) = node (node l x k a) y (m+1) b := by
  cases b with
  | nil => simp at h; omega
  | node e f g i => simp only [lvl_nil, lvl_node, rlvl_nil, rlvl_node] at h; simp [split, h]

theorem lvl_pos_node {t : Tree α} (h : 0 < t.lvl) : ∃ l x r, t = node l x t.lvl r := by
  cases t with
  | nil => simp at h
  | node l x k r => exact ⟨l, x, r, rfl⟩

theorem AA_skew {t : Tree α} (h : AA t) : skew t = t := by
  cases t with
  | nil => rfl
  | node l x k r => exact skew_ne (by have := h.2.2.1; omega)

theorem AA_split {t : Tree α} (h : AA t) : split t = t := by
  cases t with
  | nil => rfl
  | node l x k r =>
    apply split_ne
    rcases h.2.2.2 with h1 | h1
    · have hr := h.2.1
      cases r with
      | nil => have := h.2.2.1; simp; omega
      | node a b c d =>
        simp only [lvl_nil, lvl_node, rlvl_nil, rlvl_node] at *
        have := hr.2.2
        omega
    · omega

/-- how insertion may change a subtree -/
def InsOk (t t' : Tree α) : Prop :=
  AA t' ∧ (t'.lvl = t.lvl ∨ (t'.lvl = t.lvl + 1 ∧ rlvl t = t.lvl ∧ rlvl t' = t.lvl))

theorem ins_left {l l' r : Tree α} {x : α} {k : Nat} (h : AA (node l x k r)) (hl : InsOk l l') :
    InsOk (node l x k r) (split (skew (node l' x k r))) := by
  obtain ⟨h1, h2, h3, h4⟩ := h
  obtain ⟨g1, g2⟩ := hl
  rcases g2 with g2 | ⟨g2, g3, g4⟩
  · have : AA (node l' x k r) := ⟨g1, h2, by omega, h4⟩
    rw [AA_skew this, AA_split this]
    exact ⟨this, Or.inl rfl⟩
  · obtain ⟨a, y, b, e⟩ := lvl_pos_node (t := l') (by omega)
    have hk : l'.lvl = k := by omega
    rw [hk] at e
    subst e
    rw [skew_eq]
    simp only [lvl_nil, lvl_node, rlvl_nil, rlvl_node] at *
    obtain ⟨ga, gb, gc, gd⟩ := g1
    by_cases hr : r.lvl = k
    · rw [split_eq hr (by omega)]
      refine ⟨⟨⟨ga, gb, gc, by omega⟩, h2, by simp only [lvl_nil, lvl_node, rlvl_nil, rlvl_node], by omega⟩, Or.inr ⟨rfl, hr, hr⟩⟩
    · have hn : AA (node a y k (node b x k r)) := by
        refine ⟨ga, ⟨gb, h2, by omega, h4⟩, gc, Or.inr ⟨rfl, ?_⟩⟩
        simp only [lvl_nil, lvl_node, rlvl_nil, rlvl_node]; omega
      rw [AA_split hn]
      exact ⟨hn, Or.inl rfl⟩

theorem ins_right {l r r' : Tree α} {x : α} {k : Nat} (h : AA (node l x k r)) (hr : InsOk r r') :
    InsOk (node l x k r) (split (skew (node l x k r'))) := by
  obtain ⟨h1, h2, h3, h4⟩ := h
  obtain ⟨g1, g2⟩ := hr
  rw [skew_ne (by omega)]
  by_cases hn : AA (node l x k r')
  · rw [AA_split hn]; exact ⟨hn, Or.inl rfl⟩
  · -- then r' is on level k with a right child on level k
    have hlv : r'.lvl = k ∧ rlvl r' = k := by
      have hb : ¬ (r'.lvl + 1 = k ∨ (r'.lvl = k ∧ rlvl r' < k)) := fun c => hn ⟨h1, g1, h3, c⟩
      have hle : rlvl r' ≤ r'.lvl := by
        cases r' with
        | nil => simp
        | node a b c d => have := g1.2.2.2; simp only [lvl_nil, lvl_node, rlvl_nil, rlvl_node] at *; omega
      omega
    obtain ⟨a, y, b, e⟩ := lvl_pos_node (t := r') (by omega)
    rw [hlv.1] at e
    subst e
    simp only [lvl_nil, lvl_node, rlvl_nil, rlvl_node] at *
    obtain ⟨ga, gb, gc, gd⟩ := g1
    rw [split_eq hlv.2 (by omega)]
    refine ⟨⟨⟨h1, ga, h3, Or.inl gc⟩, gb, by simp only [lvl_nil, lvl_node, rlvl_nil, rlvl_node], by omega⟩, Or.inr ⟨by simp only [lvl_nil, lvl_node, rlvl_nil, rlvl_node], ?_, ?_⟩⟩
    · simp only [lvl_nil, lvl_node, rlvl_nil, rlvl_node]; omega
    · simp only [lvl_nil, lvl_node, rlvl_nil, rlvl_node]; omega

theorem insert0_AA (cmp : α → α → Ordering) (x : α) (t : Tree α) (h : AA t) :
    InsOk t (insert0 cmp x t).1 := by
  induction t with
  | nil =>
    have : split (skew (node nil x 1 nil)) = node nil x 1 nil := rfl
    simp only [insert0, this]
    exact ⟨⟨trivial, trivial, rfl, Or.inl rfl⟩, Or.inr ⟨rfl, rfl, rfl⟩⟩
  | node l y k r ihl ihr =>
    unfold insert0
    split
    · exact ins_left h (ihl h.1)
    · exact ins_right h (ihr h.2.1)
    · have hn : AA (node l x k r) := h
      dsimp only
      rw [AA_skew hn, AA_split hn]
      exact ⟨hn, Or.inl rfl⟩

/-- how deletion may change a subtree: level the same or one less; no new horizontal link on the old level -/
def DelOk (t t' : Tree α) : Prop :=
  AA t' ∧ (t'.lvl = t.lvl ∨ t'.lvl + 1 = t.lvl) ∧ (t'.lvl = t.lvl → rlvl t < t.lvl → rlvl t' < t.lvl)

theorem fixup_AA {t : Tree α} (h : AA t) : deleteFixup t = t := by
  have hd : decreaseLevel t = t := by
    cases t with
    | nil => rfl
    | node l x k r =>
      obtain ⟨_, _, h3, h4⟩ := h
      unfold decreaseLevel
      split
      · rename_i heq; exact heq.symm
      · rename_i heq; exact heq.symm
      · rename_i l x k r hne heq
        simp only [node.injEq] at heq
        obtain ⟨rfl, rfl, rfl, rfl⟩ := heq
        dsimp only
        rw [if_neg]
        intro hlt
        cases l <;> cases r <;> simp only [lvl_nil, lvl_node, rlvl_nil, rlvl_node] at * <;> first | omega | (split at hlt <;> omega)
  unfold deleteFixup
  dsimp only
  rw [hd, AA_skew h]
  cases t with
  | nil => rfl
  | node l x k r =>
    have e1 : onRight skew (node l x k r) = node l x k r := by simp [onRight, AA_skew h.2.1]
    have e2 : onRight (onRight skew) (node l x k r) = node l x k r := by
      cases r with
      | nil => rfl
      | node a b c d => simp [onRight, AA_skew h.2.1.2.1]
    rw [e1, e2, AA_split h]
    simp [onRight, AA_split h.2.1]

theorem decrease_eval {l r : Tree α} {x : α} {j : Nat}
    (h : (l.lvl + 1 = j ∧ (r.lvl = j ∨ r.lvl = j + 1)) ∨ (r.lvl + 1 = j ∧ l.lvl = j)) (hj : 0 < j) :
    decreaseLevel (node l x (j+1) r) = node l x j
      (match r with | nil => nil | node a y m b => node a y (if j < m then j else m) b) := by
  unfold decreaseLevel
  split
  · rename_i heq; simp at heq
  · rename_i heq; simp only [node.injEq] at heq
    obtain ⟨rfl, _, _, rfl⟩ := heq
    simp only [lvl_nil, lvl_node, rlvl_nil, rlvl_node] at h; omega
  · rename_i l x k r hne heq
    simp only [node.injEq] at heq
    obtain ⟨rfl, rfl, rfl, rfl⟩ := heq
    cases l with
    | nil =>
      simp only [lvl_nil, lvl_node, rlvl_nil, rlvl_node] at h
      have : j = 1 := by omega
      subst this
      cases r with
      | nil => simp only [lvl_nil, lvl_node, rlvl_nil, rlvl_node] at h; omega
      | node a y m b => simp; split <;> rfl
    | node a y m b =>
      cases r with
      | nil =>
        simp only [lvl_nil, lvl_node, rlvl_nil, rlvl_node] at h
        have : j = 1 := by omega
        subst this; simp
      | node c z n d =>
        simp only [lvl_nil, lvl_node, rlvl_nil, rlvl_node] at h
        have : (if m < n then m else n) + 1 = j := by split <;> omega
        simp only [this]
        rw [if_pos (by omega)]
        split <;> rfl

theorem fixup_left {l r : Tree α} {x : α} {k : Nat} (hl : AA l) (hr : AA r)
    (h3 : l.lvl + 2 = k) (h4 : r.lvl + 1 = k ∨ (r.lvl = k ∧ rlvl r < k)) :
    AA (deleteFixup (node l x k r)) ∧
    ((deleteFixup (node l x k r)).lvl = k ∨ (deleteFixup (node l x k r)).lvl + 1 = k) ∧
    ((deleteFixup (node l x k r)).lvl = k → r.lvl < k → rlvl (deleteFixup (node l x k r)) < k) := by
  obtain ⟨j, rfl⟩ : ∃ j, k = j + 1 := ⟨l.lvl + 1, by omega⟩
  have hj : l.lvl + 1 = j := by omega
  have hd := decrease_eval (l := l) (r := r) (x := x) (j := j) (Or.inl ⟨hj, by omega⟩) (by omega)
  obtain ⟨rl, rx, rr, er⟩ := lvl_pos_node (t := r) (by omega)
  rcases h4 with h4 | ⟨h4, h5⟩
  · -- r on level j
    have hrj : r.lvl = j := by omega
    rw [hrj] at er; subst er
    simp only [lvl_nil, lvl_node, rlvl_nil, rlvl_node] at *
    obtain ⟨r1, r2, r3, r4⟩ := hr
    simp only [Nat.lt_irrefl, if_false] at hd
    have hs : deleteFixup (node l x (j+1) (node rl rx j rr)) = onRight split (split (node l x j (node rl rx j rr))) := by
      unfold deleteFixup; dsimp only
      rw [hd, skew_ne (by omega)]
      simp only [onRight]
      rw [skew_ne (by omega)]
      simp only [onRight, AA_skew r2]
    rw [hs]
    by_cases hrr : rr.lvl = j
    · rw [split_eq hrr (by omega)]
      simp only [onRight, AA_split r2]
      refine ⟨⟨⟨hl, r1, hj, by omega⟩, r2, by simp only [lvl_nil, lvl_node, rlvl_nil, rlvl_node], by omega⟩, Or.inl rfl, ?_⟩
      intro _ _; simp only [lvl_nil, lvl_node, rlvl_nil, rlvl_node]; omega
    · rw [split_ne (by simp only [lvl_nil, lvl_node, rlvl_nil, rlvl_node]; exact hrr)]
      have hn : AA (node rl rx j rr) := ⟨r1, r2, r3, r4⟩
      simp only [onRight, AA_split hn]
      refine ⟨⟨hl, hn, hj, Or.inr ⟨rfl, by simp only [lvl_nil, lvl_node, rlvl_nil, rlvl_node]; omega⟩⟩, Or.inr (by simp only [lvl_nil, lvl_node, rlvl_nil, rlvl_node]), ?_⟩
      simp only [lvl_nil, lvl_node, rlvl_nil, rlvl_node]; omega
  · -- r on level j+1: both its children on level j
    rw [h4] at er; subst er
    simp only [lvl_nil, lvl_node, rlvl_nil, rlvl_node] at *
    obtain ⟨r1, r2, r3, r4⟩ := hr
    have h5 : rr.lvl < j + 1 := h5
    have hrl : rl.lvl = j := by omega
    have hrr : rr.lvl = j := by omega
    simp only [show j < j + 1 by omega, if_true] at hd
    obtain ⟨a, y, b, ea⟩ := lvl_pos_node (t := rl) (by omega)
    rw [hrl] at ea; subst ea
    obtain ⟨a1, a2, a3, a4⟩ := r1
    by_cases hb : b.lvl = j
    · obtain ⟨c, z, d, ec⟩ := lvl_pos_node (t := b) (by omega)
      rw [hb] at ec; subst ec
      simp only [lvl_nil, lvl_node, rlvl_nil, rlvl_node] at a4
      obtain ⟨c1, c2, c3, c4⟩ := a2
      have hs : deleteFixup (node l x (j+1) (node (node a y j (node c z j d)) rx (j+1) rr)) =
          node (node l x j a) y (j+1) (node (node c z j d) rx (j+1) rr) := by
        unfold deleteFixup; dsimp only
        rw [hd, skew_ne (by omega)]
        simp only [onRight, skew_eq]
        rw [split_eq (by simp only [lvl_nil, lvl_node, rlvl_nil, rlvl_node]) (by omega)]
        simp only [onRight]
        rw [split_eq hrr (by omega)]
      rw [hs]
      refine ⟨⟨⟨hl, a1, hj, Or.inl a3⟩, ⟨⟨c1, c2, c3, by omega⟩, r2, by simp only [lvl_nil, lvl_node, rlvl_nil, rlvl_node], by omega⟩, by simp only [lvl_nil, lvl_node, rlvl_nil, rlvl_node],
        Or.inr ⟨rfl, by simp only [lvl_nil, lvl_node, rlvl_nil, rlvl_node]; omega⟩⟩, Or.inl rfl, ?_⟩
      intro _ h; omega
    · have hs : deleteFixup (node l x (j+1) (node (node a y j b) rx (j+1) rr)) =
          node (node l x j a) y (j+1) (split (node b rx j rr)) := by
        unfold deleteFixup; dsimp only
        rw [hd, skew_ne (by omega)]
        simp only [onRight, skew_eq]
        rw [skew_ne (l := b) (by omega)]
        rw [split_eq (by simp only [lvl_nil, lvl_node, rlvl_nil, rlvl_node]) (by omega)]
      rw [hs]
      by_cases hrrr : rlvl rr = j
      · obtain ⟨c, z, d, ec⟩ := lvl_pos_node (t := rr) (by omega)
        rw [hrr] at ec; subst ec
        simp only [lvl_nil, lvl_node, rlvl_nil, rlvl_node] at hrrr
        obtain ⟨c1, c2, c3, c4⟩ := r2
        rw [split_eq hrrr (by omega)]
        refine ⟨⟨⟨hl, a1, hj, Or.inl a3⟩, ⟨⟨a2, c1, by omega, by omega⟩, c2, by simp only [lvl_nil, lvl_node, rlvl_nil, rlvl_node], by omega⟩,
          by simp only [lvl_nil, lvl_node, rlvl_nil, rlvl_node], Or.inr ⟨rfl, by simp only [lvl_nil, lvl_node, rlvl_nil, rlvl_node]; omega⟩⟩, Or.inl rfl, ?_⟩
        intro _ h; omega
      · rw [split_ne hrrr]
        have hle : rlvl rr ≤ j := by
          cases rr with
          | nil => simp
          | node e f g i => have := r2.2.2.2; simp only [lvl_nil, lvl_node, rlvl_nil, rlvl_node] at *; omega
        refine ⟨⟨⟨hl, a1, hj, Or.inl a3⟩, ⟨a2, r2, by omega, Or.inr ⟨hrr, by omega⟩⟩, by simp only [lvl_nil, lvl_node, rlvl_nil, rlvl_node],
          Or.inl (by simp only [lvl_nil, lvl_node, rlvl_nil, rlvl_node])⟩, Or.inl rfl, ?_⟩
        intro _ h; omega

theorem fixup_right {l r : Tree α} {x : α} {k : Nat} (hl : AA l) (hr : AA r)
    (h3 : l.lvl + 1 = k) (h4 : r.lvl + 2 = k) :
    AA (deleteFixup (node l x k r)) ∧
    ((deleteFixup (node l x k r)).lvl = k ∨ (deleteFixup (node l x k r)).lvl + 1 = k) ∧
    ((deleteFixup (node l x k r)).lvl = k → rlvl (deleteFixup (node l x k r)) < k) := by
  obtain ⟨j, rfl⟩ : ∃ j, k = j + 1 := ⟨l.lvl, by omega⟩
  have hj : l.lvl = j := by omega
  have hrj : r.lvl + 1 = j := by omega
  have hd := decrease_eval (l := l) (r := r) (x := x) (j := j) (Or.inr ⟨hrj, hj⟩) (by omega)
  have hd' : decreaseLevel (node l x (j+1) r) = node l x j r := by
    rw [hd]; cases r with
    | nil => rfl
    | node a y m b => simp only [lvl_nil, lvl_node, rlvl_nil, rlvl_node] at hrj; simp only [show ¬ j < m by omega, if_false]
  obtain ⟨a, y, b, ea⟩ := lvl_pos_node (t := l) (by omega)
  rw [hj] at ea; subst ea
  obtain ⟨a1, a2, a3, a4⟩ := hl
  have hrle : rlvl r < j := by
    cases r with
    | nil => simp only [lvl_nil, lvl_node, rlvl_nil, rlvl_node]; omega
    | node e f g i => have := hr.2.2.2; simp only [lvl_nil, lvl_node, rlvl_nil, rlvl_node] at *; omega
  by_cases hb : b.lvl = j
  · obtain ⟨c, z, d, ec⟩ := lvl_pos_node (t := b) (by omega)
    rw [hb] at ec; subst ec
    obtain ⟨c1, c2, c3, c4⟩ := a2
    have hdl : d.lvl < j := by
      rcases a4 with h | h
      · simp only [lvl_nil, lvl_node, rlvl_nil, rlvl_node] at h; omega
      · simp only [lvl_nil, lvl_node, rlvl_nil, rlvl_node] at h; omega
    have hs : deleteFixup (node (node a y j (node c z j d)) x (j+1) r) =
        node (node a y j c) z (j+1) (node d x j r) := by
      unfold deleteFixup; dsimp only
      rw [hd']
      simp only [onRight, skew_eq]
      rw [skew_ne (l := d) (by omega)]
      rw [split_eq (by simp only [lvl_nil, lvl_node, rlvl_nil, rlvl_node]) (by omega)]
      simp only [onRight]
      rw [split_ne (by omega)]
    rw [hs]
    refine ⟨⟨⟨a1, c1, a3, Or.inl c3⟩, ⟨c2, hr, by omega, Or.inl hrj⟩, by simp only [lvl_nil, lvl_node, rlvl_nil, rlvl_node], Or.inl (by simp only [lvl_nil, lvl_node, rlvl_nil, rlvl_node])⟩,
      Or.inl rfl, ?_⟩
    intro _; simp only [lvl_nil, lvl_node, rlvl_nil, rlvl_node]; omega
  · have hb' : b.lvl + 1 = j := by omega
    have hs : deleteFixup (node (node a y j b) x (j+1) r) = node a y j (node b x j r) := by
      unfold deleteFixup; dsimp only
      rw [hd']
      simp only [onRight, skew_eq]
      rw [skew_ne (l := b) (by omega)]
      simp only [onRight, AA_skew hr]
      rw [split_ne (by simp only [lvl_nil, lvl_node, rlvl_nil, rlvl_node]; omega)]
      simp only [onRight]
      rw [split_ne (by omega)]
    rw [hs]
    refine ⟨⟨a1, ⟨a2, hr, hb', Or.inl hrj⟩, a3, Or.inr ⟨rfl, by simp only [lvl_nil, lvl_node, rlvl_nil, rlvl_node]; omega⟩⟩,
      Or.inr (by simp only [lvl_nil, lvl_node, rlvl_nil, rlvl_node]), ?_⟩
    simp only [lvl_nil, lvl_node, rlvl_nil, rlvl_node]; omega

/-- fix-up after a deletion in the left subtree -/
theorem del_left {l l' r : Tree α} {x y : α} {k : Nat} (h : AA (node l x k r)) (hl : DelOk l l') :
    DelOk (node l x k r) (deleteFixup (node l' y k r)) := by
  obtain ⟨h1, h2, h3, h4⟩ := h
  obtain ⟨g1, g2, g3⟩ := hl
  rcases g2 with g2 | g2
  · have hn : AA (node l' y k r) := ⟨g1, h2, by omega, h4⟩
    rw [fixup_AA hn]
    exact ⟨hn, Or.inl rfl, fun _ h => h⟩
  · exact fixup_left g1 h2 (by omega) h4

/-- fix-up after a deletion in the right subtree -/
theorem del_right {l r r' : Tree α} {x y : α} {k : Nat} (h : AA (node l x k r)) (hr : DelOk r r') :
    DelOk (node l x k r) (deleteFixup (node l y k r')) := by
  obtain ⟨h1, h2, h3, h4⟩ := h
  obtain ⟨g1, g2, g3⟩ := hr
  by_cases hc : r'.lvl + 2 = k
  · obtain ⟨a, b, c⟩ := fixup_right (x := y) h1 g1 h3 hc
    exact ⟨a, b, fun h _ => c h⟩
  · have hn : AA (node l y k r') := by
      refine ⟨h1, g1, h3, ?_⟩
      rcases h4 with h4 | ⟨h4, h5⟩
      · omega
      · rcases g2 with g2 | g2
        · right; refine ⟨by omega, ?_⟩
          have := g3 g2 (by omega); omega
        · omega
    rw [fixup_AA hn]
    refine ⟨hn, Or.inl rfl, ?_⟩
    intro _ hlt
    simp only [lvl_nil, lvl_node, rlvl_nil, rlvl_node] at *
    omega

theorem DelOk_refl_drop {r : Tree α} {x : α} {k : Nat} (h : AA (node nil x k r)) : DelOk (node nil x k r) r := by
  obtain ⟨_, h2, h3, h4⟩ := h
  simp only [lvl_nil, lvl_node, rlvl_nil, rlvl_node] at h3
  refine ⟨h2, by simp only [lvl_nil, lvl_node, rlvl_nil, rlvl_node]; omega, ?_⟩
  simp only [lvl_nil, lvl_node, rlvl_nil, rlvl_node]
  omega

theorem DelOk_drop_left {l : Tree α} {x : α} {k : Nat} (h : AA (node l x k nil)) : DelOk (node l x k nil) l := by
  obtain ⟨h1, _, h3, h4⟩ := h
  simp only [lvl_nil, lvl_node, rlvl_nil, rlvl_node] at h4
  refine ⟨h1, by simp only [lvl_nil, lvl_node, rlvl_nil, rlvl_node]; omega, ?_⟩
  simp only [lvl_nil, lvl_node, rlvl_nil, rlvl_node]
  omega

theorem deleteFirst0_AA (t : Tree α) (h : AA t) : DelOk t (deleteFirst0 t).1 := by
  fun_induction deleteFirst0 t with
  | case1 => exact ⟨trivial, Or.inl rfl, fun _ h => h⟩
  | case2 x k r => exact DelOk_refl_drop h
  | case3 ll lx lk lr x k r l' d heq ih =>
    have ih := ih h.1
    rw [heq] at ih
    exact del_left h ih

theorem deleteLast0_AA (t : Tree α) (h : AA t) : DelOk t (deleteLast0 t).1 := by
  fun_induction deleteLast0 t with
  | case1 => exact ⟨trivial, Or.inl rfl, fun _ h => h⟩
  | case2 l x k => exact DelOk_drop_left h
  | case3 l x k rl rx rk rr r' d heq ih =>
    have ih := ih h.2.1
    rw [heq] at ih
    exact del_right h ih

theorem delete0_AA (cmp : α → α → Ordering) (key : α) (t : Tree α) (h : AA t) :
    DelOk t (delete0 cmp key t).1 := by
  induction t with
  | nil => exact ⟨trivial, Or.inl rfl, fun _ h => h⟩
  | node l x k r ihl ihr =>
    unfold delete0
    split
    · exact del_left h (ihl h.1)
    · exact del_right h (ihr h.2.1)
    · split
      · exact DelOk_refl_drop h
      · rename_i r' hne
        have := deleteFirst0_AA r h.2.1
        split
        · rename_i heq; rw [heq] at this; exact del_right h this
        · rename_i heq; rw [heq] at this; exact del_right h this
      · have := deleteLast0_AA l h.1
        split
        · rename_i heq; rw [heq] at this; exact del_left h this
        · rename_i heq; rw [heq] at this; exact del_left h this

theorem height_le (t : Tree α) (h : AA t) : t.height ≤ 2 * t.lvl ∧ (rlvl t < t.lvl → t.height + 1 ≤ 2 * t.lvl) := by
  induction t with
  | nil => simp [height]
  | node l x k r ihl ihr =>
    obtain ⟨h1, h2, h3, h4⟩ := h
    have il := ihl h1
    have ir := ihr h2
    simp only [height, lvl_nil, lvl_node, rlvl_nil, rlvl_node] at *
    omega

theorem size_ge (t : Tree α) (h : AA t) : 2 ^ t.lvl ≤ t.toList.length + 1 := by
  induction t with
  | nil => simp [toList]
  | node l x k r ihl ihr =>
    obtain ⟨h1, h2, h3, h4⟩ := h
    have il := ihl h1
    have ir := ihr h2
    simp only [lvl_node, toList, List.length_append, List.length_cons]
    have : 2 ^ (k-1) ≤ 2 ^ r.lvl := Nat.pow_le_pow_right (by omega) (by omega)
    have e : l.lvl = k - 1 := by omega
    rw [e] at il
    obtain ⟨j, rfl⟩ : ∃ j, k = j + 1 := ⟨l.lvl, by omega⟩
    simp only [Nat.add_sub_cancel] at *
    rw [Nat.pow_succ]; omega

end Neco.Aat
