import Verif.Proof.Aat
import Verif.Model.Maps
/-! Lemmas on the sharded maps. -/
namespace Neco.Maps
open Aat Tree Neco.Spec

theorem transCmp_of {α : Type} (f : α → α → Ordering)
    (swap : ∀ a b, f a b = (f b a).swap)
    (trans : ∀ a b c, f a b ≠ .gt → f b c ≠ .gt → f a c ≠ .gt) : Std.TransCmp f where
  eq_swap := by intro a b; exact swap a b
  isLE_trans := by
    intro a b c h1 h2
    have e : ∀ o : Ordering, o.isLE = true ↔ o ≠ .gt := by intro o; cases o <;> simp
    rw [e] at *
    exact trans a b c h1 h2

theorem intCmp_lt {a b : Int} : intCmp a b = .lt ↔ a < b := by
  unfold intCmp; split
  · simp [*]
  · split <;> simp [*]
theorem intCmp_gt {a b : Int} : intCmp a b = .gt ↔ b < a := by
  unfold intCmp; split
  · simp; omega
  · split <;> simp [*]
theorem intCmp_eq {a b : Int} : intCmp a b = .eq ↔ a = b := by
  unfold intCmp; split
  · simp; omega
  · split <;> simp <;> omega

instance : Std.TransCmp intCmp := by
  apply transCmp_of
  · intro a b
    have h1 := intCmp_lt (a := a) (b := b)
    have h2 := intCmp_gt (a := a) (b := b)
    have h3 := intCmp_lt (a := b) (b := a)
    have h4 := intCmp_gt (a := b) (b := a)
    cases hab : intCmp a b <;> cases hba : intCmp b a <;> simp_all <;> omega
  · intro a b c; simp only [ne_eq, intCmp_gt]; omega

instance : Std.TransCmp allCompare := by
  apply transCmp_of
  · intro a b; exact Std.OrientedCmp.eq_swap (cmp := intCmp)
  · intro a b c; simp only [ne_eq, allCompare, intCmp_gt]; omega

theorem allCompare_lt {a b : Key} : allCompare a b = .lt ↔ a.id < b.id := intCmp_lt
theorem allCompare_eq {a b : Key} : allCompare a b = .eq ↔ a.id = b.id := intCmp_eq

theorem dlCompare_lt {a b : Key} :
    dlCompare a b = .lt ↔ a.deadline < b.deadline ∨ (a.deadline = b.deadline ∧ a.id < b.id) := by
  unfold dlCompare; split
  · simp [*]
  · split
    · simp; omega
    · rw [intCmp_lt]; omega
theorem dlCompare_gt {a b : Key} :
    dlCompare a b = .gt ↔ b.deadline < a.deadline ∨ (b.deadline = a.deadline ∧ b.id < a.id) := by
  unfold dlCompare; split
  · simp; omega
  · split
    · simp [*]
    · rw [intCmp_gt]; omega

theorem evCompare_lt {a b : Key} :
    evCompare a b = .lt ↔ a.evfd < b.evfd ∨ (a.evfd = b.evfd ∧ (a.evkind < b.evkind ∨
      (a.evkind = b.evkind ∧ a.id < b.id))) := by
  unfold evCompare
  split
  · simp [*]
  · split
    · simp; omega
    · split
      · simp; omega
      · split
        · simp; omega
        · rw [intCmp_lt]; omega
theorem evCompare_gt {a b : Key} :
    evCompare a b = .gt ↔ b.evfd < a.evfd ∨ (b.evfd = a.evfd ∧ (b.evkind < a.evkind ∨
      (b.evkind = a.evkind ∧ b.id < a.id))) := by
  unfold evCompare
  split
  · simp; omega
  · split
    · simp [*]
    · split
      · simp; omega
      · split
        · simp; omega
        · rw [intCmp_gt]; omega

theorem swap_of_lt_gt {f : Key → Key → Ordering} (h : ∀ a b, f a b = .lt ↔ f b a = .gt) (a b : Key) :
    f a b = (f b a).swap := by
  have h1 := h a b
  have h2 := h b a
  cases hab : f a b <;> cases hba : f b a <;> simp_all

instance : Std.TransCmp dlCompare := by
  apply transCmp_of
  · apply swap_of_lt_gt; intro a b; rw [dlCompare_lt, dlCompare_gt]
  · intro a b c; simp only [ne_eq, dlCompare_gt]; omega

instance : Std.TransCmp evCompare := by
  apply transCmp_of
  · apply swap_of_lt_gt; intro a b; rw [evCompare_lt, evCompare_gt]
  · intro a b c; simp only [ne_eq, evCompare_gt]; omega

theorem evCompare_eq {a b : Key} : evCompare a b = .eq ↔ a.evfd = b.evfd ∧ a.evkind = b.evkind ∧ a.id = b.id := by
  have h1 := evCompare_lt (a := a) (b := b)
  have h2 := evCompare_gt (a := a) (b := b)
  cases h : evCompare a b <;> simp [h] at h1 h2 ⊢ <;> omega

theorem dlCompare_eq {a b : Key} : dlCompare a b = .eq ↔ a.deadline = b.deadline ∧ a.id = b.id := by
  have h1 := dlCompare_lt (a := a) (b := b)
  have h2 := dlCompare_gt (a := a) (b := b)
  cases h : dlCompare a b <;> simp [h] at h1 h2 ⊢ <;> omega

/-! ## sharding -/

variable {cmp : Key → Key → Ordering} [Std.TransCmp cmp] {h : Key → Nat}

/-- `m` represents the sorted list `l`: every shard holds the part of `l` hashed to it -/
def Rep (cmp : Key → Key → Ordering) (h : Key → Nat) (m : Map) (l : List Key) : Prop :=
  Omap.Sorted cmp l ∧ ∀ i, (m.roots i).toList = l.filter (fun k => decide (h k = i))

theorem gt_lt_split (x : Key) (l : List Key) (hs : Omap.Sorted cmp l) :
    l.filter (fun y => cmp x y == .gt) ++ l.filter (fun y => cmp x y == .lt) = Omap.erase cmp x l := by
  unfold Omap.erase
  induction l with
  | nil => rfl
  | cons y l ih =>
    have hs' : Omap.Sorted cmp l := (List.pairwise_cons.1 hs).2
    have hy := (List.pairwise_cons.1 hs).1
    have ih := ih hs'
    cases hc : cmp x y with
    | lt =>
      have hr := lt_right hc hy
      simp only [List.filter_cons, hc]
      rw [filter_none (l := l) (p := fun y => cmp x y == .gt) (fun z hz => by simp [hr z hz]),
        filter_all (l := l) (p := fun y => cmp x y == .lt) (fun z hz => by simp [hr z hz]),
        filter_all (l := l) (p := fun y => cmp x y != .eq) (fun z hz => by simp [hr z hz])]
      rfl
    | gt =>
      simp only [List.filter_cons, hc]
      simp
      rw [← ih]
    | eq =>
      simp only [List.filter_cons, hc]
      simpa using ih

theorem rep_sorted {m : Map} {l : List Key} (hr : Rep cmp h m l) (i : Nat) :
    Omap.Sorted cmp (m.roots i).toList := by
  rw [hr.2 i]; exact hr.1.filter _

theorem filter_comm' (p q : Key → Bool) (l : List Key) : (l.filter p).filter q = (l.filter q).filter p := by
  simp only [List.filter_filter]
  congr 1; funext k; exact Bool.and_comm _ _

theorem rep_insert (hh : ∀ a b, cmp a b = .eq → h a = h b) {m : Map} {l : List Key} (hr : Rep cmp h m l) (x : Key) :
    Rep cmp h (comapInsert h cmp m x).1 (Omap.insert cmp x l) ∧
    (comapInsert h cmp m x).2 = Omap.find cmp x l ∧
    (comapInsert h cmp m x).1.count = m.count + 1 := by
  have hsp := insert0_spec x (m.roots (h x)) (rep_sorted hr (h x))
  refine ⟨⟨insert_sorted x l hr.1, ?_⟩, ?_, rfl⟩
  · intro i
    show (if i = h x then (insert cmp (m.roots (h x)) x).1 else m.roots i).toList = _
    by_cases hi : i = h x
    · subst hi
      rw [if_pos rfl]
      show (insert0 cmp x (m.roots (h x))).1.toList = _
      rw [hsp.1, hr.2]
      unfold Omap.insert
      rw [List.filter_append, List.filter_cons]
      simp only [decide_true, if_true]
      rw [filter_comm' _ _ l, filter_comm' (fun k => decide (h k = h x)) (fun y => cmp x y == .lt) l]
    · rw [if_neg hi, hr.2]
      unfold Omap.insert
      rw [List.filter_append, List.filter_cons]
      simp only [show ¬ h x = i from fun e => hi e.symm, decide_false, Bool.false_eq_true, if_false]
      rw [← List.filter_append, gt_lt_split x l hr.1]
      unfold Omap.erase
      rw [filter_comm' _ _ l]
      symm; apply filter_all
      intro y hy
      simp at hy
      simp
      intro hc
      exact hi (by rw [hh x y hc, hy.2])
  · show (insert0 cmp x (m.roots (h x))).2 = _
    rw [hsp.2, hr.2]
    unfold Omap.find
    rw [List.find?_filter]
    congr 1; funext y
    by_cases hc : cmp x y = .eq
    · simp [hc, hh x y hc]
    · simp [hc]

theorem rep_delete (hh : ∀ a b, cmp a b = .eq → h a = h b) {m : Map} {l : List Key} (hr : Rep cmp h m l) (x : Key) :
    Rep cmp h (comapDelete h cmp m x).1 (Omap.erase cmp x l) ∧
    (comapDelete h cmp m x).2 = Omap.find cmp x l ∧
    (comapDelete h cmp m x).1.count = m.count - 1 := by
  have hsp := delete0_spec x (m.roots (h x)) (rep_sorted hr (h x))
  refine ⟨⟨erase_sorted x l hr.1, ?_⟩, ?_, rfl⟩
  · intro i
    show (if i = h x then (delete cmp (m.roots (h x)) x).1 else m.roots i).toList = _
    by_cases hi : i = h x
    · subst hi
      rw [if_pos rfl]
      show (delete0 cmp x (m.roots (h x))).1.toList = _
      rw [hsp.1, hr.2]
      unfold Omap.erase
      rw [filter_comm']
    · rw [if_neg hi, hr.2]
      unfold Omap.erase
      rw [filter_comm']
      symm; apply filter_all
      intro y hy
      simp at hy
      simp
      intro hc
      exact hi (by rw [hh x y hc, hy.2])
  · show (delete0 cmp x (m.roots (h x))).2 = _
    rw [hsp.2, hr.2]
    unfold Omap.find
    rw [List.find?_filter]
    congr 1; funext y
    by_cases hc : cmp x y = .eq
    · simp [hc, hh x y hc]
    · simp [hc]

theorem rep_search (hh : ∀ a b, cmp a b = .eq → h a = h b) {m : Map} {l : List Key} (hr : Rep cmp h m l) (x : Key) :
    comapSearch h cmp m x = Omap.find cmp x l := by
  unfold comapSearch
  rw [search_spec x _ (rep_sorted hr (h x)), hr.2]
  unfold Omap.find
  rw [List.find?_filter]
  congr 1; funext y
  by_cases hc : cmp x y = .eq
  · simp [hc, hh x y hc]
  · simp [hc]

/-! ## walking -/

theorem succ_of_split {pre post : List Key} {co : Key} (hs : Omap.Sorted cmp (pre ++ co :: post)) :
    Omap.succ cmp co (pre ++ co :: post) = post.head? := by
  obtain ⟨h1, h2, h3, h4, h5⟩ := sorted_node.1 hs
  unfold Omap.succ
  have refl : cmp co co = .eq := Std.ReflCmp.compare_self
  rw [List.find?_append, find_none (l := pre) (fun y hy => by simp [cmp_gt_of_lt (h3 y hy)])]
  simp only [Option.none_or, List.find?_cons, refl]
  cases post with
  | nil => rfl
  | cons a as => simp [List.find?_cons, h4 a (by simp)]

theorem walk_spec (t : Tree Key) (p : Key → Bool) (hs : Omap.Sorted cmp t.toList) :
    ∀ (fuel : Nat) (pre post : List Key), t.toList = pre ++ post → post.length < fuel →
      walk cmp t p fuel post.head? = post.takeWhile p := by
  intro fuel
  induction fuel with
  | zero => intro pre post _ h; omega
  | succ fuel ih =>
    intro pre post he hf
    cases post with
    | nil => rfl
    | cons co post =>
      simp only [List.head?_cons, walk, List.takeWhile_cons]
      split
      · have hm : co ∈ t.toList := by rw [he]; simp
        rw [next_spec hs hm]
        have hs' := hs
        rw [he] at hs' ⊢
        rw [succ_of_split hs']
        rw [ih (pre ++ [co]) post (by rw [he]; simp) (by simp at hf; omega)]
      · rfl

omit [Std.TransCmp cmp] in
theorem find_eq_head_dropWhile (p : Key → Bool) (l : List Key) :
    l.find? (fun y => !p y) = (l.dropWhile p).head? := by
  induction l with
  | nil => rfl
  | cons a l ih =>
    rw [List.find?_cons, List.dropWhile_cons]
    cases p a <;> simp [ih]

theorem walk_from_lowerBound (t : Tree Key) (p : Key → Bool) (key : Key) (hs : Omap.Sorted cmp t.toList) :
    walk cmp t p (t.toList.length + 1) (iter cmp t key) =
      (t.toList.dropWhile (fun y => cmp key y == .gt)).takeWhile p := by
  rw [iter_spec key t hs]
  have e : Omap.lowerBound cmp key t.toList = (t.toList.dropWhile (fun y => cmp key y == .gt)).head? := by
    rw [← find_eq_head_dropWhile]; rfl
  rw [e]
  apply walk_spec t p hs _ (t.toList.takeWhile (fun y => cmp key y == .gt))
  · exact (List.takeWhile_append_dropWhile).symm
  · have := (List.dropWhile_sublist (fun y => cmp key y == .gt) (l := t.toList)).length_le
    omega

end Neco.Maps
