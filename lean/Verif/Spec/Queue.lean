import Verif.Model.Colist

/-! # Specification: waiting queues -/

namespace Neco.Colist

/-- what the queues mean: which queues and nodes exist, and the nodes in each queue, first to last -/
structure Q where
  lists : List Nat := []
  nodes : List Nat := []
  q : Nat → List Nat := fun _ => []

/-- take a node out of whatever queue it is in -/
def Q.without (s : Q) (n : Nat) : Q := { s with q := fun i => (s.q i).filter (· ≠ n) }

/-- the operation on queues; `none`: not allowed (a queue or node that was not made, or making one twice) -/
def Q.step (s : Q) : Op → Option (Q × Out)
  | .init i => if i ∈ s.lists then none else some ({ s with lists := i :: s.lists }, .unit)
  | .node n => if n ∈ s.nodes then none else some ({ s with nodes := n :: s.nodes }, .unit)
  | .remove n => if n ∈ s.nodes then some (s.without n, .unit) else none
  | .push i n => if i ∈ s.lists ∧ n ∈ s.nodes then some ({ s with q := fun j => if j = i then (s.q j).filter (· ≠ n) ++ [n] else (s.q j).filter (· ≠ n) }, .unit) else none
  | .pop i => if i ∈ s.lists then (match s.q i with
      | [] => some (s, .popped none)
      | n :: l => some ({ s with q := fun j => if j = i then l else s.q j }, .popped (some n))) else none
  | .empty i => if i ∈ s.lists then some (s, .bool (s.q i).isEmpty) else none

/-- operations in sequence -/
def Q.run (s : Q) : List Op → Option (Q × List Out)
  | [] => some (s, [])
  | o :: l => match s.step o with
    | none => none
    | some (s', r) => (s'.run l).map (fun p => (p.1, r :: p.2))

/-- from address `a` on, following `next` yields these nodes and then the address `z`; following `prev` leads back -/
def Linked (m : Mem) (a : Addr) : List Nat → Addr → Prop
  | [], z => m.next a = z ∧ m.prev z = a
  | n :: l, z => m.next a = .nd n ∧ m.prev (.nd n) = a ∧ Linked m (.nd n) l z

/-- the memory holds these queues -/
structure Holds (m : Mem) (s : Q) : Prop where
  /-- each queue is linked up, forward and backward -/
  linked : ∀ i ∈ s.lists, Linked m (.hd i) (s.q i) (.tl i)
  /-- a node not in a queue is linked to itself -/
  alone : ∀ n ∈ s.nodes, (∀ i, n ∉ s.q i) → m.next (.nd n) = .nd n ∧ m.prev (.nd n) = .nd n
  /-- no node is in two queues -/
  one : ∀ i j n, n ∈ s.q i → n ∈ s.q j → i = j
  /-- nor twice in one -/
  once : ∀ i, (s.q i).Nodup
  /-- only nodes that exist, in queues that exist -/
  known : ∀ i n, n ∈ s.q i → i ∈ s.lists ∧ n ∈ s.nodes

end Neco.Colist
