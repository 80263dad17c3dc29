import Verif.Model.Stack

/-! # Specification: coroutine stacks -/

namespace Neco.Stack

/-- two regions of memory, address and size, do not overlap -/
def Apart2 (x y : Nat × Nat) : Prop := x.1 + x.2 ≤ y.1 ∨ y.1 + y.2 ≤ x.1

/-- the first region lies in the second -/
def Within (x y : Nat × Nat) : Prop := y.1 ≤ x.1 ∧ x.1 + x.2 ≤ y.1 + y.2

/-- the regions the program has from the system: mapped and not given back yet (the log is newest first) -/
def mapped : List Ev → List (Nat × Nat)
  | [] => []
  | .map a n :: l => (a, n) :: mapped l
  | .unmap a n :: l => (mapped l).erase (a, n)
  | _ :: l => mapped l

/-- a region is given back only while the program has it -/
def Paired : List Ev → Prop
  | [] => True
  | .unmap a n :: l => (a, n) ∈ mapped l ∧ Paired l
  | _ :: l => Paired l

/-- the page size is a power of two which holds the bookkeeping of a free stack, and no size computation exceeds `SIZE_MAX` -/
def Sane (o : Opts) (p : Nat) : Prop :=
  (∃ k, p = 2 ^ k) ∧ 32 ≤ p ∧
  2 * p + hdrSize + (mgrInit o p).gapsz + ((if o.stacksz ≠ 0 then o.stacksz else 8388608) + (mgrInit o p).gapsz + 2 * p) * (mgrInit o p).maxcap < W

end Neco.Stack
