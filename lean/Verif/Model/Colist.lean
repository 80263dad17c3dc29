/-!
# The intrusive queues, with their pointers

Model of `colist`, neco.c 3266-3315: a doubly linked list with a sentinel at each end; the links are in the
coroutines (or `select` cases) themselves.  The list of `sco` has the same code (neco.c 1934-1975), and the lists
of `stack.c` the same two operations (neco.c 2365-2404).

Memory is a function from addresses to links.  The sentinels of the lists and the nodes are different objects,
so they have different addresses; that is the only thing assumed about addresses.
-/

namespace Neco.Colist

/-- the address of an object with links: sentinels `head` and `tail` of list `i`, node `n` (a coroutine or a `select` case), or `NULL` -/
inductive Addr
  | hd (i : Nat)
  | tl (i : Nat)
  | nd (n : Nat)
  | null
deriving DecidableEq, Repr

/-- the links in memory: `struct colink`, neco.c 3269-3272 -/
structure Mem where
  prev : Addr → Addr
  next : Addr → Addr

/-- `a->next = b` -/
def Mem.setNext (m : Mem) (a b : Addr) : Mem := { m with next := fun x => if x = a then b else m.next x }
/-- `a->prev = b` -/
def Mem.setPrev (m : Mem) (a b : Addr) : Mem := { m with prev := fun x => if x = a then b else m.prev x }

/-- `remove_from_list`, neco.c 3280-3286 -/
def remove (m : Mem) (n : Nat) : Mem :=
  let m := m.setNext (m.prev (.nd n)) (m.next (.nd n))
  let m := m.setPrev (m.next (.nd n)) (m.prev (.nd n))
  let m := m.setNext (.nd n) (.nd n)
  m.setPrev (.nd n) (.nd n)

/-- `colist_init`, neco.c 3288-3293 -/
def init (m : Mem) (i : Nat) : Mem :=
  let m := m.setPrev (.hd i) .null
  let m := m.setNext (.hd i) (.tl i)
  let m := m.setPrev (.tl i) (.hd i)
  m.setNext (.tl i) .null

/-- `colist_push_back`, neco.c 3295-3302 -/
def pushBack (m : Mem) (i n : Nat) : Mem :=
  let m := remove m n
  let m := m.setNext (m.prev (.tl i)) (.nd n)
  let m := m.setPrev (.nd n) (m.prev (.tl i))
  let m := m.setNext (.nd n) (.tl i)
  m.setPrev (.tl i) (.nd n)

/-- the node at an address; the code casts, `none`: it is no node -/
def Addr.node : Addr → Option Nat
  | .nd n => some n
  | _ => none

/-- `colist_pop_front`, neco.c 3304-3311; the outer `none`: the pointer is no node, which is undefined -/
def popFront (m : Mem) (i : Nat) : Option (Mem × Option Nat) :=
  if m.next (.hd i) = .tl i then some (m, none)
  else match m.next (.hd i) with
    | .nd n => some (remove m n, some n)
    | _ => none

/-- `colist_is_empty`, neco.c 3313-3315 -/
def isEmpty (m : Mem) (i : Nat) : Bool := m.next (.hd i) = .tl i

/-- making a node: `co->next = co; co->prev = co`, neco.c 3754-3755; for `select` cases neco.c 6442-6454 -/
def nodeInit (m : Mem) (n : Nat) : Mem := (m.setNext (.nd n) (.nd n)).setPrev (.nd n) (.nd n)

/-- operations -/
inductive Op
  | init (i : Nat)
  | node (n : Nat)
  | remove (n : Nat)
  | push (i n : Nat)
  | pop (i : Nat)
  | empty (i : Nat)
deriving DecidableEq, Repr

/-- what an operation returns -/
inductive Out
  | unit
  | popped (n : Option Nat)
  | bool (b : Bool)
deriving DecidableEq, Repr

/-- one operation on the memory; `none`: undefined -/
def step (m : Mem) : Op → Option (Mem × Out)
  | .init i => some (init m i, .unit)
  | .node n => some (nodeInit m n, .unit)
  | .remove n => some (remove m n, .unit)
  | .push i n => some (pushBack m i n, .unit)
  | .pop i => (popFront m i).map (fun p => (p.1, .popped p.2))
  | .empty i => some (m, .bool (isEmpty m i))

/-- operations in sequence -/
def run (m : Mem) : List Op → Option (Mem × List Out)
  | [] => some (m, [])
  | o :: l => match step m o with
    | none => none
    | some (m', r) => (run m' l).map (fun p => (p.1, r :: p.2))

end Neco.Colist
