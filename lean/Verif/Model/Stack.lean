/-!
# The allocator of coroutine stacks

Model of `stack.c` as it is embedded in neco.c (lines 2206-2620), for the configuration with `mmap`
(`#ifndef _WIN32`) and for `onlymalloc`.

* Sizes are `size_t`: arithmetic is modulo `2^64`.  Addresses are numbers.
* A group is identified by the address of its mapping (that is what the code stores).
* The two intrusive doubly linked lists are lists here, head to tail.  Their two operations, linking an
  element before the tail and unlinking an element, are those of C52.
* `mmap` and `malloc` are parameters of an operation: they fail, or give an address.  `Fresh` says what is assumed of it.
* Unlinking a stack which is not in the free list, giving back a stack of a group that is not mapped, and
  decrementing a zero counter are undefined or wrong in the program: they set `fault`.
* `held`, `lost` and `log` are ghost: what is handed out, what was given back and cannot be handed out again
  (no free list), and what was asked of the system.
-/

namespace Neco.Stack

/-- `SIZE_MAX + 1` -/
def W : Nat := 2 ^ 64

/-- `stack_align_size`, neco.c 2296-2300 -/
def alignSize (size boundary : Nat) : Nat :=
  if size < boundary then boundary
  else if size &&& (boundary - 1) ≠ 0 then (size + boundary - (size &&& (boundary - 1))) % W
  else size

/-- `struct stack_opts`, neco.c 2229-2238 -/
structure Opts where
  stacksz : Nat
  defcap : Nat
  maxcap : Nat
  gapsz : Nat
  useguards : Bool
  nofree : Bool
  nopage : Bool
  onlymalloc : Bool
deriving DecidableEq, Repr

/-- the settings in `struct stack_mgr0`, neco.c 2267-2276 -/
structure Cfg where
  pagesz : Nat
  stacksz : Nat
  defcap : Nat
  maxcap : Nat
  gapsz : Nat
  useguards : Bool
  nofree : Bool
  nopage : Bool
  onlymalloc : Bool
deriving DecidableEq, Repr

/-- `stack_mgr_init_`, neco.c 2408-2427 -/
def mgrInit (o : Opts) (pagesz : Nat) : Cfg where
  pagesz := pagesz
  stacksz := alignSize (if o.stacksz ≠ 0 then o.stacksz else 8388608) pagesz
  defcap := if o.defcap ≠ 0 then o.defcap else 4
  maxcap := if o.maxcap ≠ 0 then o.maxcap else 8192
  gapsz := if o.gapsz ≠ 0 then o.gapsz else 1048576
  useguards := o.useguards
  nofree := o.nofree
  nopage := o.nopage
  onlymalloc := o.onlymalloc

/-- `struct stack_group`, neco.c 2247-2259; `base` is its own address -/
structure Group where
  base : Nat
  allocsz : Nat
  stacksz : Nat
  gapsz : Nat
  pagesz : Nat
  guards : Bool
  stack0 : Nat
  cap : Nat
  pos : Nat
  use : Nat
deriving DecidableEq, Repr

/-- `sizeof(struct stack_group)` (64 bit), neco.c 2247-2259 -/
def hdrSize : Nat := 88
/-- `sizeof(struct stack_freed)` (64 bit), neco.c 2261-2265 -/
def freedSize : Nat := 24

/-- the gap a group uses, neco.c 2326-2331 -/
def gapOf (gapsz pagesz : Nat) : Nat := if gapsz = 0 then 0 else alignSize gapsz pagesz
/-- offset of the first stack in a group, neco.c 2345-2347 -/
def off0 (gapsz pagesz : Nat) : Nat := (alignSize hdrSize pagesz + gapOf gapsz pagesz) % W
/-- size of the allocation of a group, neco.c 2345-2348 -/
def allocOf (stacksz pagesz cap gapsz : Nat) : Nat := (off0 gapsz pagesz + (stacksz + gapOf gapsz pagesz) % W * cap) % W

/-- `stack_group_new` once `mmap` gave `base`, neco.c 2322-2363 -/
def groupNew (base stacksz pagesz cap gapsz : Nat) (useguards : Bool) : Group where
  base := base
  allocsz := allocOf stacksz pagesz cap gapsz
  stacksz := stacksz
  gapsz := gapOf gapsz pagesz
  pagesz := pagesz
  guards := decide (gapsz ≠ 0) && useguards
  stack0 := (base + off0 gapsz pagesz) % W
  cap := cap
  pos := 0
  use := 0

/-- address of stack number `i` of a group, neco.c 2471 and 2517 -/
def slot (g : Group) (i : Nat) : Nat := (g.stack0 + (g.stacksz + g.gapsz) % W * i) % W

/-- what is asked of the system -/
inductive Ev
  | map (a n : Nat)
  | unmap (a n : Nat)
  /-- `mprotect(.., PROT_NONE)` -/
  | guard (a n : Nat)
  /-- `mmap` with `MAP_FIXED` over pages of a stack given back -/
  | remap (a n : Nat)
  | malloc (a n : Nat)
  | free (a : Nat)
deriving DecidableEq, Repr

structure S where
  /-- settings -/
  cfg : Cfg
  /-- the list of groups -/
  groups : List Group := []
  /-- the list of free stacks: address and group -/
  free : List (Nat × Nat) := []
  /-- ghost: the stacks handed out: address and group -/
  held : List (Nat × Nat) := []
  /-- ghost: stacks given back and not reusable (no free list) -/
  lost : List (Nat × Nat) := []
  /-- ghost -/
  log : List Ev := []
  /-- ghost: undefined behaviour happened -/
  fault : Bool := false

/-- the operations, with what the system answers -/
inductive Op
  /-- `stack_get`; result of `mmap` or `malloc`, and of the two `mprotect` -/
  | get (mem : Option Nat) (p1 p2 : Bool)
  /-- `stack_put` of a stack -/
  | put (x : Nat × Nat)
deriving DecidableEq, Repr

/-- capacity of a new group, neco.c 2506-2509; the sentinel at the head of the list has capacity zero -/
def newCap (cfg : Cfg) (groups : List Group) : Nat :=
  let c := (groups.getLast?.map (·.cap)).getD 0
  min (if c ≠ 0 then c * 2 % W else cfg.defcap) cfg.maxcap

/-- the last group if it has a stack never used, neco.c 2504-2505; the sentinel has none -/
def openGroup (groups : List Group) : Option Group :=
  match groups.getLast? with
  | none => none
  | some g => if g.pos = g.cap then none else some g

/-- replace a group -/
def setGroup (gs : List Group) (b : Nat) (f : Group → Group) : List Group := gs.map (fun g => if g.base = b then f g else g)

/-- hand out the next stack of the last group, neco.c 2517-2549 -/
def take (s : S) (g : Group) (p1 p2 : Bool) : S × Int :=
  let addr := slot g g.pos
  let done := { s with groups := setGroup s.groups g.base (fun g => { g with pos := g.pos + 1, use := g.use + 1 }), held := (addr, g.base) :: s.held }
  let e1 := if addr = g.stack0 then [Ev.guard (addr - g.gapsz) g.gapsz] else []
  if g.guards then
    if addr = g.stack0 ∧ p1 = false then (s, -1)
    else if p2 = false then ({ s with log := e1 ++ s.log }, -1)
    else ({ done with log := Ev.guard (addr + g.stacksz) g.gapsz :: e1 ++ s.log }, 0)
  else (done, 0)

/-- `stack_get_`, neco.c 2480-2550 -/
def get (s : S) (mem : Option Nat) (p1 p2 : Bool) : S × Int :=
  if s.cfg.onlymalloc then
    match mem with
    | none => (s, -1)
    | some a => ({ s with held := (a, 0) :: s.held, log := .malloc a s.cfg.stacksz :: s.log }, 0)
  else
    match if s.cfg.nofree then none else s.free.getLast? with
    | some x =>
      ({ s with free := s.free.dropLast, groups := setGroup s.groups x.2 (fun g => { g with use := g.use + 1 }), held := x :: s.held,
                fault := s.fault || !s.groups.any (fun g => g.base == x.2) }, 0)
    | none =>
      match openGroup s.groups with
      | some g => take s g p1 p2
      | none =>
        match mem with
        | none => (s, -1)
        | some a =>
          let g := groupNew a s.cfg.stacksz s.cfg.pagesz (newCap s.cfg s.groups) s.cfg.gapsz s.cfg.useguards
          take { s with groups := s.groups ++ [g], log := .map a g.allocsz :: s.log } g p1 p2

/-- the loop of `stack_release_group`, neco.c 2469-2473: unlink each; `none` if one is not in the list -/
def unlinkAll (free : List (Nat × Nat)) : List Nat → Option (List (Nat × Nat))
  | [] => some free
  | a :: q => if free.any (fun x => x.1 == a) then unlinkAll (free.eraseP (fun x => x.1 == a)) q else none

/-- `stack_release_group`, neco.c 2465-2478 -/
def release (s : S) (g : Group) : S :=
  let s' := { s with groups := s.groups.filter (fun h => h.base != g.base), lost := s.lost.filter (fun x => x.2 != g.base), log := .unmap g.base g.allocsz :: s.log }
  if s.cfg.nofree then s'
  else match unlinkAll s.free ((List.range g.pos).map (slot g)) with
    | some f => { s' with free := f }
    | none => { s' with fault := true }

/-- the pages released, neco.c 2565-2579 -/
def remaps (cfg : Cfg) (g : Group) (addr : Nat) : List Ev :=
  if cfg.nopage then []
  else
    let a := if cfg.nofree then addr else addr + g.pagesz
    let n := if cfg.nofree then g.stacksz else g.stacksz - g.pagesz
    if n > 0 then [.remap a n] else []

/-- `stack_put_`, neco.c 2556-2597 -/
def put (s : S) (x : Nat × Nat) : S :=
  if s.cfg.onlymalloc then { s with held := s.held.erase x, log := .free x.1 :: s.log }
  else
    match s.groups.find? (fun g => g.base == x.2) with
    | none => { s with fault := true }
    | some g =>
      let g' := { g with use := g.use - 1 }
      let s1 := { s with
        groups := setGroup s.groups g.base (fun g => { g with use := g.use - 1 })
        held := s.held.erase x
        free := if s.cfg.nofree then s.free else s.free ++ [x]
        lost := if s.cfg.nofree then x :: s.lost else s.lost
        log := remaps s.cfg g x.1 ++ s.log
        fault := s.fault || g.use == 0 }
      if g'.use = 0 then release s1 g' else s1

/-- the system: fails or gives a fresh region; `a + n ≤ W` -/
def Fresh (s : S) : Option Nat → Prop
  | none => True
  | some a =>
    0 < a ∧ a + allocOf s.cfg.stacksz s.cfg.pagesz (newCap s.cfg s.groups) s.cfg.gapsz ≤ W ∧ a + s.cfg.stacksz ≤ W ∧
    (∀ g ∈ s.groups, a + allocOf s.cfg.stacksz s.cfg.pagesz (newCap s.cfg s.groups) s.cfg.gapsz ≤ g.base ∨ g.base + g.allocsz ≤ a) ∧
    (s.cfg.onlymalloc = true → ∀ x ∈ s.held, a + s.cfg.stacksz ≤ x.1 ∨ x.1 + s.cfg.stacksz ≤ a)

/-- one operation; `none`: the system does not answer so, or the caller does not have that stack -/
inductive Step : S → Op → S → Int → Prop
  | get {s : S} (mem : Option Nat) (p1 p2 : Bool) (h : Fresh s mem) : Step s (.get mem p1 p2) (get s mem p1 p2).1 (get s mem p1 p2).2
  | put {s : S} (x : Nat × Nat) (h : x ∈ s.held) : Step s (.put x) (put s x) 0

/-- the manager after `stack_mgr_init`, neco.c 2408-2440 -/
def init (o : Opts) (pagesz : Nat) : S := { cfg := mgrInit o pagesz }

/-- what sequences of calls can lead to -/
inductive Reach (o : Opts) (pagesz : Nat) : S → Prop
  | init : Reach o pagesz (init o pagesz)
  | step {s s' : S} {a : Op} {v : Int} (r : Reach o pagesz s) (h : Step s a s' v) : Reach o pagesz s'

/-- the groups given back by `stack_mgr_destroy_`, neco.c 2447-2457 -/
def destroy (s : S) : List (Nat × Nat) := s.groups.map (fun g => (g.base, g.allocsz))

end Neco.Stack
