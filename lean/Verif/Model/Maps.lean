import Verif.Model.Aat
/-!
# The maps built on the AA tree

`comap` (all coroutines by id), `evmap` (descriptor waiters), `sco_map` (paused coroutines) are arrays of
512 trees indexed by a hash of the key; the deadline queue is a single tree.
-/
namespace Neco.Maps
open Aat

/-- `mix13` / `sco_mix13`, neco.c 1854-1861 and 2944-2951 (64-bit wrapping). -/
def mix13 (key : BitVec 64) : BitVec 64 :=
  let key := key ^^^ (key >>> 30)
  let key := key * 0xbf58476d1ce4e5b9#64
  let key := key ^^^ (key >>> 27)
  let key := key * 0x94d049bb133111eb#64
  key ^^^ (key >>> 31)

/-- `COMAP_NSHARDS`, `EVMAP_NSHARDS`, `SCO_NSHARDS`, neco.c 1870, 3483, 3518. -/
def nshards : Nat := 512

/-- shard index `mix13(key) & (NSHARDS-1)` -/
def shard (key : Int) : Nat := (mix13 (BitVec.ofInt 64 key) &&& 511#64).toNat

/-- comparison by an integer field: `a < b ? -1 : a > b` -/
def intCmp (a b : Int) : Ordering := if a < b then .lt else if a > b then .gt else .eq

/-- the fields of `struct coroutine` used as keys (neco.c 3323-3373) -/
structure Key where
  id : Int
  deadline : Int := 0
  evfd : Int := 0
  evkind : Int := 0
deriving DecidableEq, Repr

/-- `all_compare` neco.c 3382-3385 and `sco_compare` neco.c 1836-1838. -/
def allCompare (a b : Key) : Ordering := intCmp a.id b.id

/-- `dl_compare`, neco.c 3390-3395. -/
def dlCompare (a b : Key) : Ordering :=
  if a.deadline < b.deadline then .lt else if a.deadline > b.deadline then .gt
  else intCmp a.id b.id

/-- `evcompare`, neco.c 3400-3406. -/
def evCompare (a b : Key) : Ordering :=
  if a.evfd < b.evfd then .lt else if a.evfd > b.evfd then .gt
  else if a.evkind < b.evkind then .lt else if a.evkind > b.evkind then .gt
  else intCmp a.id b.id

/-- `struct comap`/`evmap`/`sco_map`: the roots and a count. `h` is the shard function. -/
structure Map where
  roots : Nat → Tree Key
  count : Int

def Map.empty : Map := ⟨fun _ => .nil, 0⟩

def Map.setRoot (m : Map) (i : Nat) (t : Tree Key) : Map :=
  { m with roots := fun j => if j = i then t else m.roots j }

/-- `comap_insert`, neco.c 3495-3499 (same shape as `evmap_insert`, 3529-3533): count goes up always -/
def comapInsert (h : Key → Nat) (cmp : Key → Key → Ordering) (m : Map) (co : Key) : Map × Option Key :=
  let (t, prev) := insert cmp (m.roots (h co)) co
  ({ m.setRoot (h co) t with count := m.count + 1 }, prev)

/-- `comap_search`, neco.c 3501-3503. -/
def comapSearch (h : Key → Nat) (cmp : Key → Key → Ordering) (m : Map) (key : Key) : Option Key :=
  search cmp key (m.roots (h key))

/-- `comap_delete`, neco.c 3505-3509 (same shape as `evmap_delete`, 3543-3547): count goes down always -/
def comapDelete (h : Key → Nat) (cmp : Key → Key → Ordering) (m : Map) (key : Key) : Map × Option Key :=
  let (t, prev) := delete cmp (m.roots (h key)) key
  ({ m.setRoot (h key) t with count := m.count - 1 }, prev)

/-- `sco_map_insert`, neco.c 1885-1891: count goes up only for a new key -/
def scoMapInsert (h : Key → Nat) (m : Map) (co : Key) : Map × Option Key :=
  let (t, prev) := insert allCompare (m.roots (h co)) co
  ({ m.setRoot (h co) t with count := if prev.isNone then m.count + 1 else m.count }, prev)

/-- `sco_map_delete`, neco.c 1893-1899: count goes down only if something was deleted -/
def scoMapDelete (h : Key → Nat) (m : Map) (key : Key) : Map × Option Key :=
  let (t, prev) := delete allCompare (m.roots (h key)) key
  ({ m.setRoot (h key) t with count := if prev.isSome then m.count - 1 else m.count }, prev)

/-- `evmap_iter`, neco.c 3535-3537. -/
def evmapIter (h : Key → Nat) (m : Map) (key : Key) : Option Key := iter evCompare (m.roots (h key)) key

/-- `evmap_next`, neco.c 3539-3541. -/
def evmapNext (h : Key → Nat) (m : Map) (key : Key) : Option Key := next evCompare (m.roots (h key)) key

/-- shard by coroutine id (`comap_getaat`, neco.c 3492-3493) -/
def byId (k : Key) : Nat := shard k.id
/-- shard by descriptor (`evmap_getaat`, neco.c 3527) -/
def byFd (k : Key) : Nat := shard k.evfd

/-- `evexists`, neco.c 3683-3687. The key has id 0, smaller than every coroutine id. -/
def evexists (m : Map) (fd kind : Int) : Option Key :=
  match evmapIter byFd m { id := 0, evfd := fd, evkind := kind } with
  | some it => if it.evfd = fd ∧ it.evkind = kind then some it else none
  | none => none

/-- a loop `while (co && p(co)) { visit(co); co = next(tree, co); }`: the items visited.
`fuel` bounds the turns; the number of items suffices (the theorems confirm). -/
def walk (cmp : Key → Key → Ordering) (t : Tree Key) (p : Key → Bool) : Nat → Option Key → List Key
  | 0, _ => []
  | _ + 1, none => []
  | fuel + 1, some co => if p co then co :: walk cmp t p fuel (next cmp t co) else []

/-- the waking loop over expired deadlines in `rt_sched_paused_step`, neco.c 4228-4236:
coroutines woken, in order.  (The loop calls `sco_resume`, which does not change the deadline queue.) -/
def dlWake (t : Tree Key) (now : Int) : List Key :=
  walk dlCompare t (fun k => decide (k.deadline < now)) (t.toList.length + 1) (first t)

/-- the waking loop of `rt_sched_event_step` for one (descriptor, direction), neco.c 4128-4136. -/
def evWake (m : Map) (fd kind : Int) : List Key :=
  let key : Key := { id := 0, evfd := fd, evkind := kind }
  walk evCompare (m.roots (byFd key)) (fun k => decide (k.evfd = fd ∧ k.evkind = kind))
    ((m.roots (byFd key)).toList.length + 1) (evmapIter byFd m key)

end Neco.Maps
