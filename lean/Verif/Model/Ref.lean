/-! # References to channels and generators

Model of `chan_fastmake`, `chan_fastretain`, `chan_fastrelease` and the pool of channels without messages, neco.c 5778-5926 and 4296-4303.
A block of memory is a number; `malloc` always gives a new one (a block that was freed is never looked at again, so nothing is lost).
What the other functions do to a channel is any change of the rest of its header.  The checks for `NULL` and for the thread are not modelled. -/

namespace Neco.Ref

/-- `INT_MAX`, limits.h -/
def INT_MAX : Nat := 2 ^ 31 - 1

/-- the part of `struct neco_chan` that the other functions use, neco.c 5719-5731 -/
structure Head where
  sclosed : Bool := false
  rclosed : Bool := false
  qrecv : Bool := false
  lok : Bool := false
  /-- how many wait -/
  queue : Nat := 0
  buflen : Nat := 0
  bufpos : Nat := 0
deriving DecidableEq, Repr

/-- where a block is -/
inductive Loc
  | never
  | out
  | pool
  | freed
deriving DecidableEq, Repr

/-- `struct neco_chan`, neco.c 5718-5731 -/
structure Chan where
  rc : Int := 0
  msgsize : Nat := 0
  bufcap : Nat := 0
  head : Head := {}
  /-- ghost: bytes allocated after the header -/
  room : Nat := 0
  /-- ghost -/
  loc : Loc := .never
  /-- ghost: how often it was freed -/
  frees : Nat := 0
  /-- ghost: how many references there are: made or retained, and not yet released -/
  refs : Nat := 0
deriving DecidableEq, Repr

/-- the program -/
structure S where
  chans : Nat → Chan := fun _ => {}
  /-- the next block `malloc` gives -/
  next : Nat := 0
  /-- `rt->zchanpool`, last one first -/
  pool : List Nat := []
  /-- `rt->zchanpoolcap` -/
  poolcap : Nat := 0
  /-- ghost: signed overflow, a write outside of the pool, a block freed that was not allocated -/
  fault : Bool := false
  /-- the runtime has ended -/
  ended : Bool := false

/-- set a channel -/
def put (s : S) (b : Nat) (c : Chan) : S := { s with chans := fun x => if x = b then c else s.chans x }

/-- `free` -/
def free (s : S) (b : Nat) : S :=
  let c := s.chans b
  { put s b { c with loc := .freed, frees := c.frees + 1 } with fault := s.fault || decide (c.loc = .freed ∨ c.loc = .never) }

/-- the bytes of the ring, neco.c 5785: a `size_t` -/
def ringSize (ds cap : Nat) (gen : Bool) : Nat := if gen then 0 else (ds * (cap + 1)) % 2 ^ 64

/-- the channel after `chan_fastmake`, neco.c 5796-5801: the header is zeroed and set -/
def fresh (ds cap room : Nat) (frees : Nat) : Chan := { rc := 0, msgsize := ds, bufcap := cap, room := room, loc := .out, frees := frees, refs := 1 }

/-- `chan_make` with `chan_fastmake`, neco.c 5778-5816, or `chan_fastmake` for a generator, neco.c 3860; the new channel, if it worked; `mem`: does `malloc` work? -/
def make (s : S) (ds cap : Nat) (gen mem : Bool) : Option Nat × S :=
  if ds > INT_MAX ∨ cap > INT_MAX then (none, s)
  else
    let ring := ringSize ds cap gen
    match s.pool with
    | b :: rest =>
      if ring = 0 then (some b, put { s with pool := rest } b (fresh ds cap (s.chans b).room (s.chans b).frees))
      else if mem then (some s.next, put { s with next := s.next + 1 } s.next (fresh ds cap ring 0))
      else (none, s)
    | [] =>
      if mem then (some s.next, put { s with next := s.next + 1 } s.next (fresh ds cap ring 0))
      else (none, s)

/-- `chan_fastretain`, neco.c 5867-5869 -/
def retain (s : S) (b : Nat) : S :=
  let c := s.chans b
  { put s b { c with rc := c.rc + 1, refs := c.refs + 1 } with fault := s.fault || decide (c.rc + 1 > INT_MAX) }

/-- `zchanpush`, neco.c 5901-5917; `mem`: does `realloc` work? -/
def zchanpush (s : S) (b : Nat) (mem : Bool) : Bool × S :=
  let push (s : S) : S := { put s b { s.chans b with loc := .pool } with pool := b :: s.pool, fault := s.fault || decide (¬ s.pool.length < s.poolcap) }
  if s.pool.length = s.poolcap then
    if s.poolcap = 256 then (false, s)
    else
      let cap := if s.poolcap = 0 then 16 else s.poolcap * 2
      if mem then (true, push { s with poolcap := cap })
      else (false, s)
  else (true, push s)

/-- `chan_fastrelease`, neco.c 5919-5926 -/
def release (s : S) (b : Nat) (mem : Bool) : S :=
  let c := s.chans b
  let s := put s b { c with rc := c.rc - 1, refs := c.refs - 1 }
  if c.rc - 1 < 0 then
    if c.msgsize > 0 then free s b
    else
      let p := zchanpush s b mem
      if p.1 then p.2 else free p.2 b
  else s

/-- `rt_freezchanpool`, neco.c 4296-4303 -/
def freePool (s : S) : S := { s.pool.foldl free s with pool := [], ended := true }

/-- what can happen -/
inductive Act
  | make (ds cap : Nat) (gen mem : Bool)
  | retain (b : Nat)
  | release (b : Nat) (mem : Bool)
  /-- any other function: `neco_chan_send` and so on -/
  | other (b : Nat) (h : Head)
  /-- the runtime ends -/
  | finish

/-- a step: a program uses, retains and releases a channel only while it has a reference -/
def step (s : S) : Act → Option S
  | .make ds cap gen mem => if s.ended then none else some (make s ds cap gen mem).2
  | .retain b => if s.ended ∨ (s.chans b).refs = 0 then none else some (retain s b)
  | .release b mem => if s.ended ∨ (s.chans b).refs = 0 then none else some (release s b mem)
  | .other b h => if s.ended ∨ (s.chans b).refs = 0 then none else some (put s b { s.chans b with head := h })
  | .finish => if s.ended then none else some (freePool s)

/-- the histories whose steps are `ok` -/
inductive Reach (ok : S → Act → Prop) : S → Prop
  | init : Reach ok {}
  | step {s s' : S} (r : Reach ok s) (a : Act) (h : ok s a) (hs : step s a = some s') : Reach ok s'

end Neco.Ref
