/-!
# The AA tree (deps/aat.h, embedded at neco.c 1463-1801)

The intrusive C tree is modelled as an inductive tree whose nodes carry the item and its level.
Destructive updates of `node->left`, `node->right`, `node->level` become the construction of a new
node.  `prefix_clear` (neco.c 1493-1499), which resets the fields of an item that left the tree, has no
counterpart.  `level` (an `int`) is a natural number.  `cmp` is the three-way comparison of items.
-/
namespace Neco.Aat

inductive Tree (α : Type) where
  | nil
  | node (left : Tree α) (item : α) (level : Nat) (right : Tree α)
deriving Repr, DecidableEq

variable {α : Type}

namespace Tree

/-- `node->level`; a null node is never asked for its level in C, 0 is the usual convention -/
def lvl : Tree α → Nat
  | nil => 0
  | node _ _ k _ => k

/-- in-order sequence of items (specification view) -/
def toList : Tree α → List α
  | nil => []
  | node l x _ r => l.toList ++ x :: r.toList

/-- number of levels of nodes on the longest path (specification view) -/
def height : Tree α → Nat
  | nil => 0
  | node l _ _ r => max l.height r.height + 1

end Tree
open Tree

/-- `skew`, neco.c 1501-1511. -/
def skew : Tree α → Tree α
  | node (node ll lx lk lr) x k r =>
    if lk = k then node ll lx lk (node lr x k r) else node (node ll lx lk lr) x k r
  | t => t

/-- `split`, neco.c 1513-1524. -/
def split : Tree α → Tree α
  | node l x k (node rl rx rk (node rrl rrx rrk rrr)) =>
    if rrk = k then node (node l x k rl) rx (rk + 1) (node rrl rrx rrk rrr)
    else node l x k (node rl rx rk (node rrl rrx rrk rrr))
  | t => t

/-- `insert0`, neco.c 1526-1549: new subtree and the replaced item. -/
def insert0 (cmp : α → α → Ordering) (item : α) : Tree α → Tree α × Option α
  | nil => (split (skew (node nil item 1 nil)), none)
  | node l x k r =>
    match cmp item x with
    | .lt => let (l', rep) := insert0 cmp item l; (split (skew (node l' x k r)), rep)
    | .gt => let (r', rep) := insert0 cmp item r; (split (skew (node l x k r')), rep)
    | .eq => (split (skew (node l item k r)), some x)

/-- `insert`, neco.c 1551-1558. -/
def insert (cmp : α → α → Ordering) (t : Tree α) (item : α) : Tree α × Option α := insert0 cmp item t

/-- `decrease_level`, neco.c 1560-1579. -/
def decreaseLevel : Tree α → Tree α
  | nil => nil
  | node nil x k nil => node nil x k nil
  | node l x k r =>
    let newLevel := (match l, r with
      | node _ _ lk _, node _ _ rk _ => if lk < rk then lk else rk
      | _, _ => 0) + 1
    if newLevel < k then
      match r with
      | node rl rx rk rr =>
        node l x newLevel (if newLevel < rk then node rl rx newLevel rr else node rl rx rk rr)
      | nil => node l x newLevel nil
    else node l x k r

/-- `node->right = f(node->right)` -/
def onRight (f : Tree α → Tree α) : Tree α → Tree α
  | nil => nil
  | node l x k r => node l x k (f r)

/-- `delete_fixup`, neco.c 1581-1591. (Updating a null right child is guarded by the C test and is the
identity here.) -/
def deleteFixup (t : Tree α) : Tree α :=
  let t := decreaseLevel t
  let t := skew t
  let t := onRight skew t
  let t := onRight (onRight skew) t
  let t := split t
  onRight split t

/-- `delete_first0`, neco.c 1593-1610: new subtree and deleted item. -/
def deleteFirst0 : Tree α → Tree α × Option α
  | nil => (nil, none)
  | node nil x _ r => (r, some x)
  | node (node ll lx lk lr) x k r =>
    let (l', d) := deleteFirst0 (node ll lx lk lr)
    (deleteFixup (node l' x k r), d)

/-- `delete_last0`, neco.c 1612-1629. -/
def deleteLast0 : Tree α → Tree α × Option α
  | nil => (nil, none)
  | node l x _ nil => (l, some x)
  | node l x k (node rl rx rk rr) =>
    let (r', d) := deleteLast0 (node rl rx rk rr)
    (deleteFixup (node l x k r'), d)

/-- `delete_first`, neco.c 1631-1636. -/
def deleteFirst (t : Tree α) : Tree α × Option α := deleteFirst0 t
/-- `delete_last`, neco.c 1638-1643. -/
def deleteLast (t : Tree α) : Tree α × Option α := deleteLast0 t

/-- `if (node) node = delete_fixup(node)`, neco.c 1673-1675. -/
def fixupIf : Tree α → Tree α
  | nil => nil
  | t => deleteFixup t

/-- `delete0`, neco.c 1645-1678. The dereference of `leaf_deleted` is of a node that exists because the
subtree searched is not empty; the impossible `none` case leaves the node in place. -/
def delete0 (cmp : α → α → Ordering) (key : α) : Tree α → Tree α × Option α
  | nil => (nil, none)
  | node l x k r =>
    match cmp key x with
    | .lt => let (l', d) := delete0 cmp key l; (fixupIf (node l' x k r), d)
    | .gt => let (r', d) := delete0 cmp key r; (fixupIf (node l x k r'), d)
    | .eq =>
      match l, r with
      | nil, nil => (nil, some x)
      | nil, r =>
        match deleteFirst0 r with
        | (r', some y) => (fixupIf (node nil y k r'), some x)
        | (r', none) => (fixupIf (node nil x k r'), some x)
      | l, r =>
        match deleteLast0 l with
        | (l', some y) => (fixupIf (node l' y k r), some x)
        | (l', none) => (fixupIf (node l' x k r), some x)

/-- `delete`, neco.c 1680-1685. -/
def delete (cmp : α → α → Ordering) (t : Tree α) (key : α) : Tree α × Option α := delete0 cmp key t

/-- `search`, neco.c 1687-1702. -/
def search (cmp : α → α → Ordering) (key : α) : Tree α → Option α
  | nil => none
  | node l x _ r =>
    match cmp key x with
    | .lt => search cmp key l
    | .gt => search cmp key r
    | .eq => some x

/-- `first`, neco.c 1704-1712. -/
def first : Tree α → Option α
  | nil => none
  | node nil x _ _ => some x
  | node (node ll lx lk lr) _ _ _ => first (node ll lx lk lr)

/-- `last`, neco.c 1714-1722. -/
def last : Tree α → Option α
  | nil => none
  | node _ x _ nil => some x
  | node _ _ _ (node rl rx rk rr) => last (node rl rx rk rr)

/-- the loop of `iter`, neco.c 1724-1740, with the candidate `found`. -/
def iterLoop (cmp : α → α → Ordering) (key : α) (found : Option α) : Tree α → Option α
  | nil => found
  | node l x _ r =>
    match cmp key x with
    | .lt => iterLoop cmp key (some x) l
    | .gt => iterLoop cmp key found r
    | .eq => some x

/-- `iter`, neco.c 1724-1740. -/
def iter (cmp : α → α → Ordering) (t : Tree α) (key : α) : Option α := iterLoop cmp key none t

/-- the loop of `parent`, neco.c 1742-1760; yields the parent node (as a subtree) -/
def parentLoop (cmp : α → α → Ordering) (item : α) (par : Tree α) : Tree α → Tree α
  | nil => par
  | node l x k r =>
    match cmp item x with
    | .lt => parentLoop cmp item (node l x k r) l
    | .gt => parentLoop cmp item (node l x k r) r
    | .eq => par

/-- `parent`, neco.c 1742-1760. -/
def parent (cmp : α → α → Ordering) (t : Tree α) (item : α) : Tree α := parentLoop cmp item nil t

/-- the node holding `item`: in C the caller has the pointer, here it is found by its key -/
def nodeOf (cmp : α → α → Ordering) (item : α) : Tree α → Tree α
  | nil => nil
  | node l x k r =>
    match cmp item x with
    | .lt => nodeOf cmp item l
    | .gt => nodeOf cmp item r
    | .eq => node l x k r

/-- pointer comparison `p == node` of two nodes of one tree: same key -/
def sameNode (cmp : α → α → Ordering) (p : Tree α) (item : α) : Bool :=
  match p with
  | nil => false
  | node _ x _ _ => cmp item x == .eq

/-- the climbing loop of `next`, neco.c 1770-1775. `fuel` bounds the number of turns (the depth of the
tree is enough, which the correctness theorem confirms). -/
def climbNext (cmp : α → α → Ordering) (t : Tree α) : Nat → α → Option α
  | 0, _ => none
  | fuel + 1, item =>
    match parent cmp t item with
    | nil => none
    | node pl px _ _ => if sameNode cmp pl item then some px else climbNext cmp t fuel px

/-- `next`, neco.c 1762-1779. -/
def next (cmp : α → α → Ordering) (t : Tree α) (item : α) : Option α :=
  match nodeOf cmp item t with
  | nil => none
  | node _ x _ r =>
    match r with
    | node rl rx rk rr => first (node rl rx rk rr)
    | nil => climbNext cmp t (t.height + 1) x

/-- the climbing loop of `prev`, neco.c 1789-1794. -/
def climbPrev (cmp : α → α → Ordering) (t : Tree α) : Nat → α → Option α
  | 0, _ => none
  | fuel + 1, item =>
    match parent cmp t item with
    | nil => none
    | node _ px _ pr => if sameNode cmp pr item then some px else climbPrev cmp t fuel px

/-- `prev`, neco.c 1781-1798. -/
def prev (cmp : α → α → Ordering) (t : Tree α) (item : α) : Option α :=
  match nodeOf cmp item t with
  | nil => none
  | node l x _ _ =>
    match l with
    | node ll lx lk lr => last (node ll lx lk lr)
    | nil => climbPrev cmp t (t.height + 1) x

end Neco.Aat
