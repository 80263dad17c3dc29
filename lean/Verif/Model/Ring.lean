/-! # The message buffer of a channel

Model of `cbufslot`, `cbuf_push`, `cbuf_pop` and of the slot for `neco_chan_case`, neco.c 5749-5776 and 6442-6454, at the level of bytes, with the `int`s of the code:
a result that does not fit in an `int`, or an access outside of the allocated bytes, is a fault. -/

namespace Neco.Ring

/-- `INT_MAX`, limits.h -/
def INT_MAX : Nat := 2 ^ 31 - 1

/-- the buffer in `struct neco_chan`, neco.c 5718-5731 -/
structure R where
  msgsize : Nat
  bufcap : Nat
  buflen : Nat := 0
  bufpos : Nat := 0
  /-- `data` -/
  data : Nat → UInt8
  /-- bytes allocated for `data` -/
  room : Nat
  /-- a fault happened -/
  fault : Bool := false

/-- `chan_make`, `chan_fastmake`, neco.c 5778-5816, for a channel that is not a generator: messages of `ds` bytes; `junk` is what is in the memory allocated, if there is enough (`mem`); the size is a `size_t` -/
def make (ds cap : Nat) (junk : Nat → UInt8) (mem : Bool) : Option R :=
  if ds > INT_MAX ∨ cap > INT_MAX ∨ mem = false then none else some { msgsize := ds, bufcap := cap, data := junk, room := (ds * (cap + 1)) % 2 ^ 64 }

/-- the offset of a slot: `cbufslot`, neco.c 5750-5752 -/
def slot (r : R) (index : Nat) : Nat := r.msgsize * index
/-- the product in `cbufslot`, neco.c 5751, does not fit in an `int`, or the message there, neco.c 5761, 5769, 5989, 6451, is not within what is allocated, neco.c 5785 -/
def bad (r : R) (index : Nat) : Bool := decide (slot r index > INT_MAX ∨ slot r index + r.msgsize > r.room)

/-- `memcpy` of a message to a slot, neco.c 5761, 5989 -/
def copyTo (r : R) (index : Nat) (m : List UInt8) : R :=
  { r with data := fun i => if slot r index ≤ i ∧ i < slot r index + r.msgsize then m.getD (i - slot r index) 0 else r.data i, fault := r.fault || bad r index }
/-- `memcpy` of a message from a slot, neco.c 5769, 6451 -/
def copyFrom (r : R) (index : Nat) : List UInt8 × R :=
  ((List.range r.msgsize).map (fun i => r.data (slot r index + i)), { r with fault := r.fault || bad r index })

/-- `cbuf_push`, neco.c 5755-5764 -/
def push (r : R) (m : List UInt8) : R :=
  let pos := r.bufpos + r.buflen
  let r := { r with fault := r.fault || decide (pos > INT_MAX) }
  let pos := if pos ≥ r.bufcap then pos - r.bufcap else pos
  let r := if r.msgsize > 0 then copyTo r pos m else r
  { r with buflen := r.buflen + 1 }

/-- the end of `cbuf_pop`, neco.c 5771-5775 -/
def advance (r : R) : R :=
  let r := { r with bufpos := r.bufpos + 1 }
  let r := if r.bufpos = r.bufcap then { r with bufpos := 0 } else r
  { r with buflen := r.buflen - 1 }

/-- `cbuf_pop`, neco.c 5767-5776 -/
def pop (r : R) : List UInt8 × R :=
  let c := if r.msgsize ≠ 0 then copyFrom r r.bufpos else ([], r)
  (c.1, advance c.2)

/-- a sender copies its message to where a waiting `neco_chan_select` wants it, `cbufslot(chan, chan->bufcap)`, neco.c 5985-5990 and 6341 -/
def setCase (r : R) (m : List UInt8) : R := if r.msgsize > 0 then copyTo r r.bufcap m else r
/-- `neco_chan_select` takes a message from the buffer: `chan_tryrecv0` with the slot for the argument, neco.c 6275, 6341, 6082: the `memcpy` of `cbuf_pop` is from one slot to another -/
def popCase (r : R) : R :=
  let r := if r.msgsize ≠ 0 then copyTo (copyFrom r r.bufpos).2 r.bufcap (copyFrom r r.bufpos).1 else r
  advance r
/-- `chan_case`, neco.c 6442-6454: the `memcpy` -/
def getCase (r : R) : List UInt8 × R := if r.msgsize ≠ 0 then copyFrom r r.bufcap else ([], r)

/-- what is done with the buffer -/
inductive Act
  | push (m : List UInt8)
  | pop
  | setCase (m : List UInt8)
  | popCase
  | getCase

/-- one operation and what it gives to the user; a message is pushed only if there is room for it, neco.c 6007, 6080-6088, and popped only if there is one, neco.c 6080 -/
def step (r : R) : Act → Option (Option (List UInt8) × R)
  | .push m => if r.buflen < r.bufcap ∧ m.length = r.msgsize then some (none, push r m) else none
  | .pop => if r.buflen > 0 then some (some (pop r).1, (pop r).2) else none
  | .setCase m => if m.length = r.msgsize then some (none, setCase r m) else none
  | .popCase => if r.buflen > 0 then some (none, popCase r) else none
  | .getCase => some (some (getCase r).1, (getCase r).2)

/-- any number of operations: what they gave to the user -/
def runs : R → List Act → Option (List (Option (List UInt8)) × R)
  | r, [] => some ([], r)
  | r, a :: as => match step r a with
    | none => none
    | some (o, r1) => match runs r1 as with
      | none => none
      | some (os, r2) => some (o :: os, r2)

end Neco.Ring
