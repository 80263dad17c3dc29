import Verif.Model.Aat
import Verif.Spec.Omap
import Std
/-! Lemmas about the AA tree: in-order contents and balance. -/
namespace Neco.Aat
open Tree Neco.Spec
variable {α : Type}

/-! ## contents -/

@[simp] theorem toList_skew (t : Tree α) : (skew t).toList = t.toList := by
  unfold skew; split
  · split <;> simp [toList]
  · rfl

@[simp] theorem toList_split (t : Tree α) : (split t).toList = t.toList := by
  unfold split; split
  · split <;> simp [toList]
  · rfl

@[simp] theorem toList_decreaseLevel (t : Tree α) : (decreaseLevel t).toList = t.toList := by
  have key : ∀ (c : Prop) [Decidable c] (a b : Tree α), a.toList = b.toList →
      (if c then a else b).toList = b.toList := by
    intro c _ a b h; split <;> simp_all
  unfold decreaseLevel; split
  · rfl
  · rfl
  · dsimp only
    apply key
    split
    · simp only [toList]; rw [key _ _ _ (by simp [toList])]; rfl
    · rfl

theorem toList_onRight (f : Tree α → Tree α) (h : ∀ t, (f t).toList = t.toList) (t : Tree α) :
    (onRight f t).toList = t.toList := by
  cases t <;> simp [onRight, toList, h]

@[simp] theorem toList_deleteFixup (t : Tree α) : (deleteFixup t).toList = t.toList := by
  unfold deleteFixup
  simp only [toList_onRight _ toList_split, toList_split, toList_onRight _ (toList_onRight _ toList_skew),
    toList_onRight _ toList_skew, toList_skew, toList_decreaseLevel]

@[simp] theorem toList_fixupIf (t : Tree α) : (fixupIf t).toList = t.toList := by
  cases t
  · rfl
  · exact toList_deleteFixup _

theorem deleteFirst0_spec (t : Tree α) :
    (deleteFirst0 t).2 = t.toList.head? ∧ (deleteFirst0 t).1.toList = t.toList.tail := by
  fun_induction deleteFirst0 t with
  | case1 => simp [toList]
  | case2 => simp [toList]
  | case3 ll lx lk lr x k r l' d heq ih =>
    rw [heq] at ih
    obtain ⟨h1, h2⟩ := ih
    simp only [toList_deleteFixup, toList] at *
    have : (ll.toList ++ lx :: lr.toList) ≠ [] := by simp
    revert h1 h2
    generalize (ll.toList ++ lx :: lr.toList) = L at *
    intro h1 h2
    cases L with
    | nil => exact absurd rfl this
    | cons a as => simp_all

theorem deleteLast0_spec (t : Tree α) :
    (deleteLast0 t).2 = t.toList.getLast? ∧ (deleteLast0 t).1.toList = t.toList.dropLast := by
  fun_induction deleteLast0 t with
  | case1 => simp [toList]
  | case2 => simp [toList]
  | case3 l x k rl rx rk rr r' d heq ih =>
    rw [heq] at ih
    obtain ⟨h1, h2⟩ := ih
    simp only [toList_deleteFixup, toList] at *
    have : (rl.toList ++ rx :: rr.toList) ≠ [] := by simp
    revert h1 h2
    generalize (rl.toList ++ rx :: rr.toList) = L at *
    intro h1 h2
    cases L with
    | nil => exact absurd rfl this
    | cons a as =>
      constructor
      · rw [h1, List.getLast?_append, List.getLast?_cons_cons]
        simp [List.getLast?_cons]
      · rw [h2, List.dropLast_append_of_ne_nil (by simp)]; simp [List.dropLast]

theorem first_spec (t : Tree α) : first t = t.toList.head? := by
  fun_induction first t with
  | case1 => rfl
  | case2 => simp [toList]
  | case3 ll lx lk lr x k r ih =>
    rw [ih]; simp only [toList]
    generalize ll.toList = L
    cases L <;> simp

theorem last_spec (t : Tree α) : last t = t.toList.getLast? := by
  fun_induction last t with
  | case1 => rfl
  | case2 => simp [toList]
  | case3 l x k rl rx rk rr ih =>
    rw [ih]; simp only [toList]
    generalize hL : rl.toList ++ rx :: rr.toList = L
    have : L ≠ [] := by rw [← hL]; simp
    cases L with
    | nil => exact absurd rfl this
    | cons a as => rw [List.getLast?_append, List.getLast?_cons_cons]; simp [List.getLast?_cons]

/-! ## order -/

section Order
variable {cmp : α → α → Ordering} [Std.TransCmp cmp]

theorem cmp_gt_of_lt {a b : α} (h : cmp a b = .lt) : cmp b a = .gt := Std.OrientedCmp.gt_of_lt h
theorem cmp_lt_of_gt {a b : α} (h : cmp a b = .gt) : cmp b a = .lt := Std.OrientedCmp.lt_of_gt h

theorem sorted_node {l r : List α} {x : α} :
    Omap.Sorted cmp (l ++ x :: r) ↔
      Omap.Sorted cmp l ∧ Omap.Sorted cmp r ∧ (∀ y ∈ l, cmp y x = .lt) ∧ (∀ y ∈ r, cmp x y = .lt) ∧
      (∀ y ∈ l, ∀ z ∈ r, cmp y z = .lt) := by
  unfold Omap.Sorted
  rw [List.pairwise_append, List.pairwise_cons]
  constructor
  · rintro ⟨h1, ⟨h2, h3⟩, h4⟩
    exact ⟨h1, h3, fun y hy => h4 y hy x (by simp), h2, fun y hy z hz => h4 y hy z (by simp [hz])⟩
  · rintro ⟨h1, h2, h3, h4, h5⟩
    refine ⟨h1, ⟨h4, h2⟩, fun y hy z hz => ?_⟩
    rcases List.mem_cons.1 hz with rfl | hz
    · exact h3 y hy
    · exact h5 y hy z hz

theorem lt_right {k x : α} {r : List α} (h : cmp k x = .lt) (hr : ∀ y ∈ r, cmp x y = .lt) :
    ∀ y ∈ r, cmp k y = .lt := fun y hy => Std.TransCmp.lt_trans h (hr y hy)

theorem gt_left {k x : α} {l : List α} (h : cmp k x = .gt) (hl : ∀ y ∈ l, cmp y x = .lt) :
    ∀ y ∈ l, cmp k y = .gt := fun y hy =>
  cmp_gt_of_lt (Std.TransCmp.lt_trans (hl y hy) (cmp_lt_of_gt h))

theorem eq_right {k x : α} {r : List α} (h : cmp k x = .eq) (hr : ∀ y ∈ r, cmp x y = .lt) :
    ∀ y ∈ r, cmp k y = .lt := fun y hy => Std.TransCmp.lt_of_eq_of_lt h (hr y hy)

theorem eq_left {k x : α} {l : List α} (h : cmp k x = .eq) (hl : ∀ y ∈ l, cmp y x = .lt) :
    ∀ y ∈ l, cmp k y = .gt := fun y hy =>
  cmp_gt_of_lt (Std.TransCmp.lt_of_lt_of_eq (hl y hy) (Std.OrientedCmp.eq_symm h))

theorem filter_all {p : α → Bool} {l : List α} (h : ∀ y ∈ l, p y = true) : l.filter p = l :=
  List.filter_eq_self.2 h
theorem filter_none {p : α → Bool} {l : List α} (h : ∀ y ∈ l, p y = false) : l.filter p = [] :=
  List.filter_eq_nil_iff.2 (fun y hy => by simp [h y hy])
theorem find_none {p : α → Bool} {l : List α} (h : ∀ y ∈ l, p y = false) : l.find? p = none :=
  List.find?_eq_none.2 (fun y hy => by simp [h y hy])

theorem insert0_spec (x : α) (t : Tree α) (hs : Omap.Sorted cmp t.toList) :
    (insert0 cmp x t).1.toList = Omap.insert cmp x t.toList ∧
    (insert0 cmp x t).2 = Omap.find cmp x t.toList := by
  induction t with
  | nil => simp [insert0, toList, Omap.insert, Omap.find]
  | node l y k r ihl ihr =>
    simp only [toList] at hs
    obtain ⟨h1, h2, h3, h4, h5⟩ := sorted_node.1 hs
    have ihl := ihl h1
    have ihr := ihr h2
    unfold insert0
    split
    · rename_i hc
      have hr := lt_right hc h4
      simp only [toList_split, toList_skew, toList, ihl.1, ihl.2, Omap.insert, Omap.find]
      rw [List.filter_append, List.filter_append, List.find?_append]
      constructor
      · rw [List.filter_cons, List.filter_cons]
        simp only [hc]
        rw [filter_none (l := r.toList) (p := fun y => cmp x y == .gt) (fun y hy => by simp [hr y hy]),
          filter_all (l := r.toList) (p := fun y => cmp x y == .lt) (fun y hy => by simp [hr y hy])]
        simp
      · rw [find_none (l := y :: r.toList)]
        · simp
        · intro z hz; rcases List.mem_cons.1 hz with rfl | hz
          · simp [hc]
          · simp [hr z hz]
    · rename_i hc
      have hl := gt_left hc h3
      simp only [toList_split, toList_skew, toList, ihr.1, ihr.2, Omap.insert, Omap.find]
      rw [List.filter_append, List.filter_append, List.find?_append]
      constructor
      · rw [List.filter_cons, List.filter_cons]
        simp only [hc]
        rw [filter_all (l := l.toList) (p := fun y => cmp x y == .gt) (fun y hy => by simp [hl y hy]),
          filter_none (l := l.toList) (p := fun y => cmp x y == .lt) (fun y hy => by simp [hl y hy])]
        simp
      · rw [find_none (l := l.toList) (fun y hy => by simp [hl y hy])]
        simp [List.find?_cons, hc]
    · rename_i hc
      have hl := eq_left hc h3
      have hr := eq_right hc h4
      simp only [toList_split, toList_skew, toList, Omap.insert, Omap.find]
      rw [List.filter_append, List.filter_append, List.find?_append]
      constructor
      · rw [List.filter_cons, List.filter_cons]
        simp only [hc]
        rw [filter_all (l := l.toList) (p := fun y => cmp x y == .gt) (fun y hy => by simp [hl y hy]),
          filter_none (l := l.toList) (p := fun y => cmp x y == .lt) (fun y hy => by simp [hl y hy]),
          filter_none (l := r.toList) (p := fun y => cmp x y == .gt) (fun y hy => by simp [hr y hy]),
          filter_all (l := r.toList) (p := fun y => cmp x y == .lt) (fun y hy => by simp [hr y hy])]
        simp
      · rw [find_none (l := l.toList) (fun y hy => by simp [hl y hy])]
        simp [List.find?_cons, hc]

theorem delete0_spec (key : α) (t : Tree α) (hs : Omap.Sorted cmp t.toList) :
    (delete0 cmp key t).1.toList = Omap.erase cmp key t.toList ∧
    (delete0 cmp key t).2 = Omap.find cmp key t.toList := by
  induction t with
  | nil => simp [delete0, toList, Omap.erase, Omap.find]
  | node l x k r ihl ihr =>
    simp only [toList] at hs
    obtain ⟨h1, h2, h3, h4, h5⟩ := sorted_node.1 hs
    have ihl := ihl h1
    have ihr := ihr h2
    unfold delete0
    split
    · rename_i hc
      have hr := lt_right hc h4
      simp only [toList_fixupIf, toList, ihl.1, ihl.2, Omap.erase, Omap.find]
      rw [List.filter_append, List.find?_append]
      constructor
      · rw [List.filter_cons]; simp only [hc]
        rw [filter_all (l := r.toList) (p := fun y => cmp key y != .eq) (fun y hy => by simp [hr y hy])]
        simp
      · rw [find_none (l := x :: r.toList)]
        · simp
        · intro z hz; rcases List.mem_cons.1 hz with rfl | hz
          · simp [hc]
          · simp [hr z hz]
    · rename_i hc
      have hl := gt_left hc h3
      simp only [toList_fixupIf, toList, ihr.1, ihr.2, Omap.erase, Omap.find]
      rw [List.filter_append, List.find?_append]
      constructor
      · rw [List.filter_cons]; simp only [hc]
        rw [filter_all (l := l.toList) (p := fun y => cmp key y != .eq) (fun y hy => by simp [hl y hy])]
        simp
      · rw [find_none (l := l.toList) (fun y hy => by simp [hl y hy])]
        simp [List.find?_cons, hc]
    · rename_i hc
      have hl := eq_left hc h3
      have hr := eq_right hc h4
      have e1 : Omap.erase cmp key (node l x k r).toList = l.toList ++ r.toList := by
        simp only [toList, Omap.erase]
        rw [List.filter_append, List.filter_cons]; simp only [hc]
        rw [filter_all (l := r.toList) (p := fun y => cmp key y != .eq) (fun y hy => by simp [hr y hy]),
          filter_all (l := l.toList) (p := fun y => cmp key y != .eq) (fun y hy => by simp [hl y hy])]
        simp
      have e2 : Omap.find cmp key (node l x k r).toList = some x := by
        simp only [toList, Omap.find]
        rw [List.find?_append, find_none (l := l.toList) (fun y hy => by simp [hl y hy])]
        simp [List.find?_cons, hc]
      rw [e1, e2]
      split
      · simp [toList]
      · rename_i r' hne
        have hf := deleteFirst0_spec r
        have hne' : r.toList ≠ [] := by
          cases r with
          | nil => exact absurd rfl hne
          | node => simp [toList]
        split
        · rename_i r'' y heq
          rw [heq] at hf
          refine ⟨?_, rfl⟩
          simp only [toList_fixupIf, toList]
          obtain ⟨a, as, has⟩ := List.exists_cons_of_ne_nil hne'
          rw [has] at hf ⊢
          simp at hf; simp [hf]
        · rename_i r'' heq
          rw [heq] at hf
          obtain ⟨a, as, has⟩ := List.exists_cons_of_ne_nil hne'
          rw [has] at hf; simp at hf
      · rename_i hne1 hne2
        have hf := deleteLast0_spec l
        have hne' : l.toList ≠ [] := by
          cases l with
          | nil =>
            exact absurd rfl hne1
          | node => simp [toList]
        split
        · rename_i l' y heq
          rw [heq] at hf
          refine ⟨?_, rfl⟩
          simp only [toList_fixupIf, toList]
          have hd : l.toList.dropLast ++ [y] = l.toList := by
            have hg := hf.1.symm
            rw [List.getLast?_eq_some_getLast hne', Option.some.injEq] at hg
            rw [← hg]; exact List.dropLast_concat_getLast hne'
          rw [hf.2]
          conv => rhs; rw [← hd]
          simp
        · rename_i l' heq
          rw [heq] at hf
          have := hf.1.symm
          rw [List.getLast?_eq_none_iff] at this
          exact absurd this hne'

theorem search_spec (key : α) (t : Tree α) (hs : Omap.Sorted cmp t.toList) :
    search cmp key t = Omap.find cmp key t.toList := by
  induction t with
  | nil => simp [search, toList, Omap.find]
  | node l x k r ihl ihr =>
    simp only [toList] at hs
    obtain ⟨h1, h2, h3, h4, h5⟩ := sorted_node.1 hs
    unfold search
    simp only [Omap.find, toList, List.find?_append, List.find?_cons]
    split
    · rename_i hc
      have hr := lt_right hc h4
      rw [ihl h1, find_none (l := r.toList) (fun y hy => by simp [hr y hy])]
      simp [hc, Omap.find]
    · rename_i hc
      have hl := gt_left hc h3
      rw [ihr h2, find_none (l := l.toList) (fun y hy => by simp [hl y hy])]
      simp [hc, Omap.find]
    · rename_i hc
      have hl := eq_left hc h3
      rw [find_none (l := l.toList) (fun y hy => by simp [hl y hy])]
      simp [hc]

theorem iterLoop_spec (key : α) (t : Tree α) (found : Option α) (hs : Omap.Sorted cmp t.toList) :
    iterLoop cmp key found t = (Omap.lowerBound cmp key t.toList).or found := by
  induction t generalizing found with
  | nil => simp [iterLoop, toList, Omap.lowerBound]
  | node l x k r ihl ihr =>
    simp only [toList] at hs
    obtain ⟨h1, h2, h3, h4, h5⟩ := sorted_node.1 hs
    unfold iterLoop
    simp only [Omap.lowerBound, toList, List.find?_append, List.find?_cons]
    split
    · rename_i hc
      rw [ihl _ h1]; simp only [Omap.lowerBound, hc]
      cases List.find? (fun y => cmp key y != .gt) l.toList <;> simp [show (Ordering.lt != Ordering.gt) = true from rfl]
    · rename_i hc
      have hl := gt_left hc h3
      rw [ihr _ h2, find_none (l := l.toList) (fun y hy => by simp [hl y hy])]
      simp [hc, Omap.lowerBound]
    · rename_i hc
      have hl := eq_left hc h3
      rw [find_none (l := l.toList) (fun y hy => by simp [hl y hy])]
      simp [hc, show (Ordering.eq != Ordering.gt) = true from rfl]

theorem iter_spec (key : α) (t : Tree α) (hs : Omap.Sorted cmp t.toList) :
    iter cmp t key = Omap.lowerBound cmp key t.toList := by
  unfold iter; rw [iterLoop_spec _ _ _ hs]; simp

theorem insert_sorted (x : α) (l : List α) (hs : Omap.Sorted cmp l) : Omap.Sorted cmp (Omap.insert cmp x l) := by
  unfold Omap.insert
  rw [sorted_node]
  refine ⟨hs.filter _, hs.filter _, ?_, ?_, ?_⟩
  · intro y hy; simp at hy; exact cmp_lt_of_gt hy.2
  · intro y hy; simp at hy; exact hy.2
  · intro y hy z hz; simp at hy hz
    exact Std.TransCmp.lt_trans (cmp_lt_of_gt hy.2) hz.2

theorem erase_sorted (x : α) (l : List α) (hs : Omap.Sorted cmp l) : Omap.Sorted cmp (Omap.erase cmp x l) :=
  hs.filter _

/-! ## next and prev -/

/-- ancestors of the node of `item`, nearest first, with the side we came from (`true` = left) -/
def anc (cmp : α → α → Ordering) (item : α) : Tree α → List (Bool × Tree α)
  | nil => []
  | node l x k r =>
    match cmp item x with
    | .lt => anc cmp item l ++ [(true, node l x k r)]
    | .gt => anc cmp item r ++ [(false, node l x k r)]
    | .eq => []

omit [Std.TransCmp cmp] in
theorem parentLoop_anc (item : α) (t par : Tree α) :
    parentLoop cmp item par t = match anc cmp item t with | [] => par | (_, p) :: _ => p := by
  induction t generalizing par with
  | nil => rfl
  | node l x k r ihl ihr =>
    unfold parentLoop anc
    cases cmp item x with
    | lt => dsimp only; rw [ihl]; cases anc cmp item l <;> rfl
    | gt => dsimp only; rw [ihr]; cases anc cmp item r <;> rfl
    | eq => rfl

omit [Std.TransCmp cmp] in
theorem parent_anc (item : α) (t : Tree α) :
    parent cmp t item = match anc cmp item t with | [] => nil | (_, p) :: _ => p := by
  unfold parent; rw [parentLoop_anc]

omit [Std.TransCmp cmp] in
theorem anc_length (item : α) (t : Tree α) : (anc cmp item t).length ≤ t.height := by
  induction t with
  | nil => simp [anc]
  | node l x k r ihl ihr =>
    unfold anc; simp only [height]
    split <;> simp <;> omega

omit [Std.TransCmp cmp] in
theorem anc_nil_root {item : α} {t : Tree α} (h : nodeOf cmp item t ≠ nil) (ha : anc cmp item t = []) :
    sameNode cmp t item = true := by
  cases t with
  | nil => exact absurd rfl h
  | node l x k r =>
    unfold anc at ha
    split at ha
    · simp at ha
    · simp at ha
    · rename_i hc; simp [sameNode, hc]

theorem sameNode_false_of_all {item : α} {t : Tree α} (h : ∀ y ∈ t.toList, cmp item y ≠ .eq) :
    sameNode cmp t item = false := by
  cases t with
  | nil => rfl
  | node l x k r =>
    have := h x (by simp [toList])
    simp [sameNode, this]

theorem nodeOf_mem {item : α} {t : Tree α} (hs : Omap.Sorted cmp t.toList) (h : item ∈ t.toList) :
    nodeOf cmp item t ≠ nil := by
  induction t with
  | nil => simp [toList] at h
  | node l x k r ihl ihr =>
    simp only [toList] at hs h
    obtain ⟨h1, h2, h3, h4, h5⟩ := sorted_node.1 hs
    have refl : cmp item item = .eq := Std.ReflCmp.compare_self
    unfold nodeOf
    rcases List.mem_append.1 h with h | h
    · rw [h3 _ h]; exact ihl h1 h
    · rcases List.mem_cons.1 h with rfl | h
      · rw [refl]; simp
      · rw [cmp_gt_of_lt (h4 _ h)]; exact ihr h2 h

theorem anc_cons {item : α} {t : Tree α} (hs : Omap.Sorted cmp t.toList) (hn : nodeOf cmp item t ≠ nil)
    {d : Bool} {p : Tree α} {A : List (Bool × Tree α)} (ha : anc cmp item t = (d, p) :: A) :
    ∃ pl px pk pr, p = node pl px pk pr ∧ sameNode cmp pl item = d ∧ sameNode cmp pr item = !d ∧
      anc cmp px t = A ∧ px ∈ t.toList := by
  induction t generalizing A with
  | nil => exact absurd rfl hn
  | node l x k r ihl ihr =>
    simp only [toList] at hs
    obtain ⟨h1, h2, h3, h4, h5⟩ := sorted_node.1 hs
    unfold anc at ha
    unfold nodeOf at hn
    split at ha
    · rename_i hc
      simp only [hc] at hn
      cases hl : anc cmp item l with
      | nil =>
        rw [hl] at ha
        simp at ha
        obtain ⟨⟨rfl, rfl⟩, rfl⟩ := ha
        refine ⟨l, x, k, r, rfl, anc_nil_root hn hl, ?_, ?_, by simp [toList]⟩
        · apply sameNode_false_of_all
          intro y hy; rw [lt_right hc h4 y hy]; simp
        · have refl : cmp x x = .eq := Std.ReflCmp.compare_self
          simp [anc, refl]
      | cons q Q =>
        rw [hl] at ha
        simp at ha
        obtain ⟨rfl, rfl⟩ := ha
        obtain ⟨pl, px, pk, pr, e1, e2, e3, e4, e5⟩ := ihl h1 hn hl
        refine ⟨pl, px, pk, pr, e1, e2, e3, ?_, by simp [toList, e5]⟩
        unfold anc; rw [h3 _ e5, ← e4]
    · rename_i hc
      simp only [hc] at hn
      cases hl : anc cmp item r with
      | nil =>
        rw [hl] at ha
        simp at ha
        obtain ⟨⟨rfl, rfl⟩, rfl⟩ := ha
        refine ⟨l, x, k, r, rfl, ?_, anc_nil_root hn hl, ?_, by simp [toList]⟩
        · apply sameNode_false_of_all
          intro y hy; rw [gt_left hc h3 y hy]; simp
        · have refl : cmp x x = .eq := Std.ReflCmp.compare_self
          simp [anc, refl]
      | cons q Q =>
        rw [hl] at ha
        simp at ha
        obtain ⟨rfl, rfl⟩ := ha
        obtain ⟨pl, px, pk, pr, e1, e2, e3, e4, e5⟩ := ihr h2 hn hl
        refine ⟨pl, px, pk, pr, e1, e2, e3, ?_, by simp [toList, e5]⟩
        unfold anc; rw [cmp_gt_of_lt (h4 _ e5), ← e4]
    · simp at ha

/-- the nearest ancestor reached from side `d` -/
def firstFrom (d : Bool) : List (Bool × Tree α) → Option α
  | [] => none
  | (e, p) :: A => if e = d then (match p with | nil => none | node _ x _ _ => some x) else firstFrom d A

omit [Std.TransCmp cmp] in
theorem firstFrom_append (d : Bool) (A B : List (Bool × Tree α)) (h : ∀ q ∈ A, q.2 ≠ nil) :
    firstFrom d (A ++ B) = (firstFrom d A).or (firstFrom d B) := by
  induction A with
  | nil => rfl
  | cons q A ih =>
    obtain ⟨e, p⟩ := q
    simp only [List.cons_append, firstFrom]
    split
    · cases p with
      | nil => exact absurd rfl (h (e, nil) (by simp))
      | node => rfl
    · exact ih (fun q hq => h q (by simp [hq]))

omit [Std.TransCmp cmp] in
theorem anc_ne_nil (item : α) (t : Tree α) : ∀ q ∈ anc cmp item t, q.2 ≠ nil := by
  induction t with
  | nil => simp [anc]
  | node l x k r ihl ihr =>
    unfold anc
    split
    · intro q hq; rcases List.mem_append.1 hq with h | h
      · exact ihl q h
      · simp at h; subst h; simp
    · intro q hq; rcases List.mem_append.1 hq with h | h
      · exact ihr q h
      · simp at h; subst h; simp
    · simp

theorem climbNext_eq {t : Tree α} (hs : Omap.Sorted cmp t.toList) : ∀ (fuel : Nat) (item : α),
    nodeOf cmp item t ≠ nil → (anc cmp item t).length < fuel →
    climbNext cmp t fuel item = firstFrom true (anc cmp item t) := by
  intro fuel
  induction fuel with
  | zero => intro item _ h; omega
  | succ fuel ih =>
    intro item hn hf
    unfold climbNext
    rw [parent_anc]
    cases ha : anc cmp item t with
    | nil => rfl
    | cons q A =>
      obtain ⟨d, p⟩ := q
      obtain ⟨pl, px, pk, pr, rfl, e2, _, e4, e5⟩ := anc_cons hs hn ha
      simp only [e2, firstFrom]
      cases d with
      | true => simp
      | false =>
        simp only [Bool.false_eq_true, if_false]
        rw [ha] at hf; simp at hf
        rw [ih px (nodeOf_mem hs e5) (by rw [e4]; omega), e4]

theorem climbPrev_eq {t : Tree α} (hs : Omap.Sorted cmp t.toList) : ∀ (fuel : Nat) (item : α),
    nodeOf cmp item t ≠ nil → (anc cmp item t).length < fuel →
    climbPrev cmp t fuel item = firstFrom false (anc cmp item t) := by
  intro fuel
  induction fuel with
  | zero => intro item _ h; omega
  | succ fuel ih =>
    intro item hn hf
    unfold climbPrev
    rw [parent_anc]
    cases ha : anc cmp item t with
    | nil => rfl
    | cons q A =>
      obtain ⟨d, p⟩ := q
      obtain ⟨pl, px, pk, pr, rfl, _, e3, e4, e5⟩ := anc_cons hs hn ha
      simp only [e3, firstFrom]
      cases d with
      | false => simp
      | true =>
        simp only [Bool.not_true, Bool.false_eq_true, if_false]
        rw [ha] at hf; simp at hf
        rw [ih px (nodeOf_mem hs e5) (by rw [e4]; omega), e4]
        rfl

/-- successor in terms of the node found -/
theorem succ_anc {item : α} {t : Tree α} (hs : Omap.Sorted cmp t.toList) {l r : Tree α} {x : α} {k : Nat}
    (hn : nodeOf cmp item t = node l x k r) :
    Omap.succ cmp item t.toList = (r.toList.head?).or (firstFrom true (anc cmp item t)) ∧
    Omap.pred cmp item t.toList = (l.toList.getLast?).or (firstFrom false (anc cmp item t)) ∧
    cmp item x = .eq ∧ x ∈ t.toList := by
  induction t with
  | nil => simp [nodeOf] at hn
  | node tl tx tk tr ihl ihr =>
    simp only [toList] at hs
    obtain ⟨h1, h2, h3, h4, h5⟩ := sorted_node.1 hs
    unfold nodeOf at hn
    unfold anc
    simp only [toList, Omap.succ, Omap.pred, List.reverse_append, List.reverse_cons, List.find?_append,
      List.append_assoc, List.find?_cons, List.cons_append, List.nil_append]
    split at hn
    · rename_i hc
      have hr := lt_right hc h4
      obtain ⟨i1, i2, i3, i4⟩ := ihl h1 hn
      simp only [Omap.succ, Omap.pred] at i1 i2
      simp only [hc]
      rw [firstFrom_append _ _ _ (anc_ne_nil _ _), firstFrom_append _ _ _ (anc_ne_nil _ _), i1, i2]
      refine ⟨?_, ?_, i3, by simp [i4]⟩
      · simp [firstFrom, Option.or_assoc]
      · rw [find_none (l := tr.toList.reverse) (fun y hy => by simp [hr y (by simpa using hy)])]
        simp [firstFrom]
    · rename_i hc
      have hl := gt_left hc h3
      obtain ⟨i1, i2, i3, i4⟩ := ihr h2 hn
      simp only [Omap.succ, Omap.pred] at i1 i2
      simp only [hc]
      rw [firstFrom_append _ _ _ (anc_ne_nil _ _), firstFrom_append _ _ _ (anc_ne_nil _ _), i1, i2]
      refine ⟨?_, ?_, i3, by simp [i4]⟩
      · rw [find_none (l := tl.toList) (fun y hy => by simp [hl y hy])]
        simp [firstFrom]
      · simp [firstFrom, Option.or_assoc]
    · rename_i hc
      have hl := eq_left hc h3
      have hr := eq_right hc h4
      simp only [hc]
      simp only [node.injEq] at hn
      obtain ⟨rfl, rfl, rfl, rfl⟩ := hn
      refine ⟨?_, ?_, hc, by simp⟩
      · rw [find_none (l := tl.toList) (fun y hy => by simp [hl y hy])]
        cases htr : tr.toList with
        | nil => simp [firstFrom]
        | cons a as =>
          have := hr a (by simp [htr])
          simp [List.find?_cons, this, firstFrom]
      · rw [find_none (l := tr.toList.reverse) (fun y hy => by simp [hr y (by simpa using hy)])]
        rw [← List.head?_reverse]
        cases htr : tl.toList.reverse with
        | nil => simp [firstFrom]
        | cons a as =>
          have := hl a (by rw [← List.mem_reverse, htr]; simp)
          simp [List.find?_cons, this, firstFrom]

theorem anc_congr {a b : α} (h : cmp a b = .eq) (t : Tree α) : anc cmp a t = anc cmp b t := by
  induction t with
  | nil => rfl
  | node l x k r ihl ihr =>
    unfold anc
    have : cmp a x = cmp b x := Std.TransCmp.congr_left h
    rw [this, ihl, ihr]

theorem nodeOf_congr {a b : α} (h : cmp a b = .eq) (t : Tree α) : nodeOf cmp a t = nodeOf cmp b t := by
  induction t with
  | nil => rfl
  | node l x k r ihl ihr =>
    unfold nodeOf
    have : cmp a x = cmp b x := Std.TransCmp.congr_left h
    rw [this, ihl, ihr]

theorem next_spec {item : α} {t : Tree α} (hs : Omap.Sorted cmp t.toList) (hm : item ∈ t.toList) :
    next cmp t item = Omap.succ cmp item t.toList := by
  have hn := nodeOf_mem hs hm
  cases h : nodeOf cmp item t with
  | nil => exact absurd h hn
  | node l x k r =>
    obtain ⟨h1, _, h3, h4⟩ := succ_anc hs h
    unfold next; rw [h, h1]
    cases r with
    | nil =>
      simp only
      have hx : nodeOf cmp x t ≠ nil := by rw [← nodeOf_congr h3, h]; simp
      rw [climbNext_eq hs _ _ hx (by have := anc_length (cmp := cmp) x t; omega), ← anc_congr h3]
      simp [toList]
    | node a b c d =>
      simp only
      rw [first_spec]
      have hne : (node a b c d).toList ≠ [] := by simp [toList]
      obtain ⟨y, ys, hy⟩ := List.exists_cons_of_ne_nil hne
      rw [hy]; rfl

theorem prev_spec {item : α} {t : Tree α} (hs : Omap.Sorted cmp t.toList) (hm : item ∈ t.toList) :
    prev cmp t item = Omap.pred cmp item t.toList := by
  have hn := nodeOf_mem hs hm
  cases h : nodeOf cmp item t with
  | nil => exact absurd h hn
  | node l x k r =>
    obtain ⟨_, h1, h3, h4⟩ := succ_anc hs h
    unfold prev; rw [h, h1]
    cases l with
    | nil =>
      simp only
      have hx : nodeOf cmp x t ≠ nil := by rw [← nodeOf_congr h3, h]; simp
      rw [climbPrev_eq hs _ _ hx (by have := anc_length (cmp := cmp) x t; omega), ← anc_congr h3]
      simp [toList]
    | node a b c d =>
      simp only
      rw [last_spec]
      have hne : (node a b c d).toList ≠ [] := by simp [toList]
      rw [List.getLast?_eq_some_getLast hne]; rfl

end Order
end Neco.Aat
