/-!
# Specification of an ordered map: a sorted list of distinct keys

`cmp` is the comparison of keys; every operation is described on plain lists, without trees.
-/
namespace Neco.Spec.Omap

variable {α : Type} (cmp : α → α → Ordering)

/-- strictly increasing -/
def Sorted (l : List α) : Prop := l.Pairwise (fun a b => cmp a b = .lt)

/-- the element with key `k` -/
def find (k : α) (l : List α) : Option α := l.find? (fun y => cmp k y == .eq)

/-- everything smaller, then `x`, then everything larger; an equal element disappears -/
def insert (x : α) (l : List α) : List α :=
  l.filter (fun y => cmp x y == .gt) ++ x :: l.filter (fun y => cmp x y == .lt)

/-- remove the element with key `k` -/
def erase (k : α) (l : List α) : List α := l.filter (fun y => cmp k y != .eq)

/-- the least element that is not smaller than `k` -/
def lowerBound (k : α) (l : List α) : Option α := l.find? (fun y => cmp k y != .gt)

/-- the least element larger than `k` -/
def succ (k : α) (l : List α) : Option α := l.find? (fun y => cmp k y == .lt)

/-- the greatest element smaller than `k` -/
def pred (k : α) (l : List α) : Option α := l.reverse.find? (fun y => cmp k y == .gt)

end Neco.Spec.Omap
