import Verif.Proof.AatBal
/-! # C47, C48: the ordered index is a sorted map and stays balanced -/
namespace Neco.Aat
open Tree Neco.Spec
variable {α : Type}

/-- updates of the index -/
inductive Op (α : Type)
  | insert (x : α) | delete (k : α) | deleteFirst | deleteLast

/-- one update of the tree, with the item reported -/
def stepTree (cmp : α → α → Ordering) (t : Tree α) : Op α → Tree α × Option α
  | .insert x => insert cmp t x
  | .delete k => delete cmp t k
  | .deleteFirst => deleteFirst t
  | .deleteLast => deleteLast t

/-- the same update on a sorted list -/
def stepSpec (cmp : α → α → Ordering) (l : List α) : Op α → List α × Option α
  | .insert x => (Omap.insert cmp x l, Omap.find cmp x l)
  | .delete k => (Omap.erase cmp k l, Omap.find cmp k l)
  | .deleteFirst => (l.tail, l.head?)
  | .deleteLast => (l.dropLast, l.getLast?)

/-- the tree after a sequence of updates starting from the empty one -/
def runTree (cmp : α → α → Ordering) (ops : List (Op α)) : Tree α :=
  ops.foldl (fun t o => (stepTree cmp t o).1) nil

/-- the list after the same sequence -/
def runSpec (cmp : α → α → Ordering) (ops : List (Op α)) : List α :=
  ops.foldl (fun l o => (stepSpec cmp l o).1) []

theorem step_refines {cmp : α → α → Ordering} [Std.TransCmp cmp] (t : Tree α) (o : Op α)
    (hs : Omap.Sorted cmp t.toList) :
    (stepTree cmp t o).1.toList = (stepSpec cmp t.toList o).1 ∧
    (stepTree cmp t o).2 = (stepSpec cmp t.toList o).2 ∧
    Omap.Sorted cmp (stepSpec cmp t.toList o).1 := by
  cases o with
  | insert x => exact ⟨(insert0_spec x t hs).1, (insert0_spec x t hs).2, insert_sorted x _ hs⟩
  | delete k => exact ⟨(delete0_spec k t hs).1, (delete0_spec k t hs).2, erase_sorted k _ hs⟩
  | deleteFirst =>
    refine ⟨(deleteFirst0_spec t).2, (deleteFirst0_spec t).1, ?_⟩
    exact List.Pairwise.sublist (List.tail_sublist _) hs
  | deleteLast =>
    refine ⟨(deleteLast0_spec t).2, (deleteLast0_spec t).1, ?_⟩
    exact List.Pairwise.sublist (List.dropLast_sublist _) hs

theorem run_refines {cmp : α → α → Ordering} [Std.TransCmp cmp] (ops : List (Op α)) :
    (runTree cmp ops).toList = runSpec cmp ops ∧ Omap.Sorted cmp (runSpec cmp ops) := by
  unfold runTree runSpec
  have key : ∀ (ops : List (Op α)) (t : Tree α), Omap.Sorted cmp t.toList →
      (ops.foldl (fun t o => (stepTree cmp t o).1) t).toList =
        ops.foldl (fun l o => (stepSpec cmp l o).1) t.toList ∧
      Omap.Sorted cmp (ops.foldl (fun l o => (stepSpec cmp l o).1) t.toList) := by
    intro ops
    induction ops with
    | nil => intro t h; exact ⟨rfl, h⟩
    | cons o ops ih =>
      intro t h
      obtain ⟨h1, _, h3⟩ := step_refines t o h
      have := ih (stepTree cmp t o).1 (by rw [h1]; exact h3)
      rw [h1] at this
      exact this
  exact key ops nil List.Pairwise.nil

/-- C47. After any sequence of updates the index holds, in order, exactly the elements of the
corresponding sorted list, and that list is strictly sorted. -/
theorem C47_contents {cmp : α → α → Ordering} [Std.TransCmp cmp] (ops : List (Op α)) :
    (runTree cmp ops).toList = runSpec cmp ops ∧ Omap.Sorted cmp (runSpec cmp ops) := run_refines ops

/-- C47. Every update reports the item that the sorted list reports: the replaced item for insert, the
deleted item (or none) for the deletions. -/
theorem C47_reports {cmp : α → α → Ordering} [Std.TransCmp cmp] (ops : List (Op α)) (o : Op α) :
    (stepTree cmp (runTree cmp ops) o).2 = (stepSpec cmp (runSpec cmp ops) o).2 := by
  obtain ⟨h1, h2⟩ := run_refines (cmp := cmp) ops
  rw [← h1] at h2 ⊢
  exact (step_refines _ o h2).2.1

/-- C47. All queries answer as on the sorted list, after any sequence of updates: search, smallest,
largest, least element not below a key, successor and predecessor of an element. -/
theorem C47_queries {cmp : α → α → Ordering} [Std.TransCmp cmp] (ops : List (Op α)) (k : α) :
    search cmp k (runTree cmp ops) = Omap.find cmp k (runSpec cmp ops) ∧
    first (runTree cmp ops) = (runSpec cmp ops).head? ∧
    last (runTree cmp ops) = (runSpec cmp ops).getLast? ∧
    iter cmp (runTree cmp ops) k = Omap.lowerBound cmp k (runSpec cmp ops) ∧
    (k ∈ runSpec cmp ops →
      next cmp (runTree cmp ops) k = Omap.succ cmp k (runSpec cmp ops) ∧
      prev cmp (runTree cmp ops) k = Omap.pred cmp k (runSpec cmp ops)) := by
  obtain ⟨h1, h2⟩ := run_refines (cmp := cmp) ops
  rw [← h1] at h2 ⊢
  exact ⟨search_spec k _ h2, first_spec _, last_spec _, iter_spec k _ h2,
    fun hm => ⟨next_spec h2 hm, prev_spec h2 hm⟩⟩

/-- The sorted-list specification of insertion really is insertion: membership. -/
theorem C47_spec_insert_mem {cmp : α → α → Ordering} [Std.TransCmp cmp] [Std.LawfulEqCmp cmp] (x y : α) (l : List α) :
    y ∈ Omap.insert cmp x l ↔ y = x ∨ y ∈ l := by
  unfold Omap.insert
  simp only [List.mem_append, List.mem_cons, List.mem_filter, beq_iff_eq]
  constructor
  · rintro (⟨h, _⟩ | rfl | ⟨h, _⟩) <;> simp_all
  · rintro (rfl | h)
    · simp
    · cases hc : cmp x y with
      | lt => simp [h]
      | gt => simp [h]
      | eq => simp [Std.LawfulEqCmp.eq_of_compare hc]

theorem run_AA (cmp : α → α → Ordering) (ops : List (Op α)) : AA (runTree cmp ops) := by
  unfold runTree
  have key : ∀ (ops : List (Op α)) (t : Tree α), AA t → AA (ops.foldl (fun t o => (stepTree cmp t o).1) t) := by
    intro ops
    induction ops with
    | nil => intro t h; exact h
    | cons o ops ih =>
      intro t h
      apply ih
      cases o with
      | insert x => exact (insert0_AA cmp x t h).1
      | delete k => exact (delete0_AA cmp k t h).1
      | deleteFirst => exact (deleteFirst0_AA t h).1
      | deleteLast => exact (deleteLast0_AA t h).1
  exact key ops nil trivial

/-- C48. After any sequence of updates (and whatever the comparison function does) the longest path has
at most `2 * log2 (n + 1)` nodes, `n` the number of elements. -/
theorem C48_balanced (cmp : α → α → Ordering) (ops : List (Op α)) :
    (runTree cmp ops).height ≤ 2 * Nat.log2 ((runTree cmp ops).toList.length + 1) := by
  have h := run_AA cmp ops
  have h1 := (height_le _ h).1
  have h2 := size_ge _ h
  have h3 : (runTree cmp ops).lvl ≤ Nat.log2 ((runTree cmp ops).toList.length + 1) :=
    (Nat.le_log2 (by omega)).2 h2
  omega

-- a non-trivial instance: 1..7 inserted in order, 4 and the smallest removed
example : (runTree (compare (α := Nat)) ([1,2,3,4,5,6,7].map Op.insert ++ [.delete 4, .deleteFirst])).toList
    = [2,3,5,6,7] := by decide +kernel
example : (runTree (compare (α := Nat)) ([1,2,3,4,5,6,7].map Op.insert)).height = 3 := by decide +kernel
example : 3 ∈ runSpec (compare (α := Nat)) ([1,2,3,4,5,6,7].map Op.insert) := by decide +kernel

end Neco.Aat
