/-!
# The allocator settings and the three functions all memory goes through

Models `neco_env_setallocator` (neco.c 3121-3127), `neco_env_setpaniconerror` (neco.c 3179-3181),
`neco_malloc` (neco.c 3129-3142), `neco_realloc` (neco.c 3144-3159) and `neco_free` (neco.c 3161-3169).
Every other function of the library that takes memory from the heap calls these three, as `malloc0`,
`realloc0`, `free0` (neco.c 3227-3229; the worker is given them at neco.c 4366-4371). The exceptions are the
stacks when they come from `malloc` (`onlymalloc`, neco.c 2481-2489, 2557-2560) and the text of a stack trace
(neco.c 3003-3072): those use the C library directly, whatever is set, and are not in this model.

An allocator family is a number: `0` is the C library, the others are given by the user. Which of the
requests are granted is an input. Not modelled: what is in the blocks; a `neco_realloc` of a block to size
zero (the library makes none: `zchanpush`, neco.c 5907, asks for at least 16 channels); an allocator that
jumps out. -/

namespace Neco.Mem

/-- `SIZE_MAX` -/
def SIZE_MAX : Nat := 2 ^ 64 - 1

/-- a call made to an allocator: which family, and for which block -/
inductive Ev where
  /-- family `k` gave block `p` -/
  | gave (k p : Nat)
  /-- family `k` was asked for `n` bytes and gave nothing -/
  | refused (k n : Nat)
  /-- family `k` was asked to resize block `p` and gave `q` in place of it -/
  | moved (k p q : Nat)
  /-- family `k` was asked to resize block `p` to `n` bytes and did not -/
  | kept (k p n : Nat)
  /-- family `k` was given block `p` back -/
  | took (k p : Nat)
deriving DecidableEq, Repr

/-- `malloc_`, `realloc_`, `free_` (neco.c 3111-3113) and `env_paniconerror` (neco.c 3108). -/
structure S where
  /-- `malloc_`: `none` is `NULL` -/
  malloc : Option Nat := none
  realloc : Option Nat := none
  free : Option Nat := none
  panicOn : Bool := false
  /-- the process was stopped by `panic` (neco.c 2978-2982) -/
  aborted : Bool := false
  /-- names of blocks not used yet (a block gets a new name when it moves) -/
  next : Nat := 1
  /-- the calls made to the allocators, newest first -/
  log : List Ev := []
deriving DecidableEq, Repr

/-- one call. In `alloc` and `resize`, `ok` tells whether the allocator grants the request. Block `0` is `NULL`. -/
inductive Op where
  | setallocator (malloc realloc free : Option Nat)
  | setpanic (on : Bool)
  | alloc (n : Nat) (ok : Bool)
  | resize (p n : Nat) (ok : Bool)
  | release (p : Nat)
deriving DecidableEq, Repr

/-- the family called: the user's function when there is one, else the C library's (neco.c 3132-3136,
3149-3153, 3163-3167) -/
def fam (f : Option Nat) : Nat := f.getD 0

/-- `if (!ptr && nbytes > 0 && env_paniconerror) panic(...)`, neco.c 3138-3140 and 3155-3157 -/
def check (s : S) (p n : Nat) : S :=
  if p = 0 ∧ n > 0 ∧ s.panicOn = true then { s with aborted := true } else s

/-- `neco_malloc`, neco.c 3129-3142: the block (0 = `NULL`) -/
def alloc (s : S) (n : Nat) (ok : Bool) : Nat × S :=
  if n < SIZE_MAX then
    if ok then (s.next, check { s with next := s.next + 1, log := .gave (fam s.malloc) s.next :: s.log } s.next n)
    else (0, check { s with log := .refused (fam s.malloc) n :: s.log } 0 n)
  else (0, check s 0 n)

/-- `neco_realloc`, neco.c 3144-3159 -/
def resize (s : S) (p n : Nat) (ok : Bool) : Nat × S :=
  if n < SIZE_MAX then
    if p = 0 then
      let r := alloc s n ok
      (r.1, check r.2 r.1 n)
    else if ok then (s.next, check { s with next := s.next + 1, log := .moved (fam s.realloc) p s.next :: s.log } s.next n)
    else (0, check { s with log := .kept (fam s.realloc) p n :: s.log } 0 n)
  else (0, check s 0 n)

/-- `neco_free`, neco.c 3161-3169 -/
def release (s : S) (p : Nat) : S :=
  if p = 0 then s else { s with log := .took (fam s.free) p :: s.log }

/-- the names of the blocks that are out, from the calls made so far -/
def out : List Ev → List Nat
  | [] => []
  | .gave _ p :: b => p :: out b
  | .moved _ p q :: b => q :: (out b).erase p
  | .took _ p :: b => (out b).erase p
  | _ :: b => out b

/-- One call. The library passes only `NULL` or a block it has (`none` otherwise), and nothing happens after a
panic. -/
def step (s : S) (o : Op) : Option (Nat × S) :=
  if s.aborted then none
  else match o with
    | .setallocator m r f => some (0, { s with malloc := m, realloc := r, free := f })
    | .setpanic b => some (0, { s with panicOn := b })
    | .alloc n ok => some (alloc s n ok)
    | .resize p n ok => if (p = 0 ∨ p ∈ out s.log) ∧ (p = 0 ∨ n > 0) then some (resize s p n ok) else none
    | .release p => if p = 0 ∨ p ∈ out s.log then some (0, release s p) else none

/-- the calls made, oldest first, lead from the start of the process to the state -/
inductive Reach : List Op → S → Prop
  | init : Reach [] {}
  | step {os s o r s'} : Reach os s → step s o = some (r, s') → Reach (os ++ [o]) s'

end Neco.Mem
