import Verif.Model.Err

/-!
# Reading and writing descriptors, and streams

Model of `read_dl` and `write_dl` (neco.c 5092-5127, 5178-5312) and of the streams (neco.c 7908-8309).

What the world does during a call is a list of *turns*, one for every round of the loop in the call: the time at
the check of the deadline, whether the coroutine is canceled or a wait of it expires while others run, and the
result of the system call.  A call that is given too few turns has not returned yet (`none`).

Simplifications: calls are made by a coroutine of the runtime the stream was made in, with a stream that is not
`NULL` (else `NECO_PERM` or `NECO_INVAL`, nothing happens); panic on error is off; a write to a
broken standard output does not end the process (neco.c 5180-5183); two calls for the same side of one stream do
not overlap.  Bytes are `UInt8`.
-/

namespace Neco.Io
open Neco.Err

/-- `INT64_MAX`: no deadline -/
def MAX : Int := 9223372036854775807
/-- `EINTR`, asm-generic/errno-base.h -/
def sysEINTR : Int := 4
/-- `EAGAIN`, asm-generic/errno-base.h -/
def sysEAGAIN : Int := 11

/-- the calling coroutine, `struct coroutine` neco.c 3323-3373 as far as it matters here, `errno`, `lasterr`
(neco.c 3414), and what went through the descriptor -/
structure W where
  canceled : Bool := false
  deadlined : Bool := false
  /-- the cancel type is `NECO_CANCEL_ASYNC` -/
  async : Bool := true
  errno : Int := 0
  lasterr : Int := 0
  /-- ghost: all bytes the descriptor has delivered -/
  inp : List UInt8 := []
  /-- ghost: all bytes the descriptor has accepted -/
  out : List UInt8 := []
  /-- ghost: a call of `neco_write` ended although the descriptor had accepted bytes the call does not account for -/
  torn : Bool := false

/-- one round of a loop; `σ`: results of the system call -/
structure Turn (σ : Type) where
  /-- time at the check of the deadline -/
  now : Int := 0
  /-- canceled while others run in this round -/
  cancel : Bool := false
  /-- marked as expired while others run in this round -/
  expire : Bool := false
  sys : σ

/-- result of `read` -/
inductive SysR
  /-- `-1` and this `errno` -/
  | err (e : Int)
  /-- data is there; `read` delivers as much as is asked for.  `[]`: end of file -/
  | data (bs : List UInt8)

/-- result of `write`, in the coroutine or by a worker thread (`write3`, neco.c 5211-5249) -/
inductive SysW
  /-- `-1` and this `errno` -/
  | err (e : Int)
  /-- that many bytes are accepted, if there are so many -/
  | acc (n : Nat)
  /-- the coroutine is woken up (neco.c 5235) before the worker thread is done, and finds the 0 that `info.res` was initialized with (neco.c 5225-5231);
  the thread then writes that many bytes.  (In C the thread may use `info` when it is gone.) -/
  | early (n : Nat)

/-- how a call ends -/
inductive Res
  | ret (n : Int)
  /-- the coroutine is terminated by `coexit(true)` -/
  | exit
deriving DecidableEq, Repr

/-- `checkdl`, neco.c 4603-4616 -/
def checkdl (w : W) (dl now : Int) : Int × W :=
  if !w.canceled && !w.deadlined && decide (dl = MAX) then (OK, w)
  else
    let late := w.deadlined || (!w.canceled && !w.deadlined && decide (dl < MAX) && decide (now > dl))
    (if w.canceled then CANCELED else if late then TIMEDOUT else OK, { w with canceled := false, deadlined := false })

/-- what happens to the coroutine while it waits or yields: `cowait`, neco.c 5008-5020, or `coyield`, neco.c 3654-3660.
`cowait` puts the canceled mark back, and drops the expired mark if it was there.
In both a coroutine with the cancel type `NECO_CANCEL_ASYNC` does not return if it is canceled. -/
def pass {σ : Type} (w : W) (t : Turn σ) : W := { w with canceled := w.canceled || t.cancel, deadlined := t.expire }

/-- `errno` after a failed check, neco.c 5101, 5264 -/
def dlErrno (c : Int) : Int := if c = CANCELED then sysECANCELED else sysETIMEDOUT

/-- `read_dl`, neco.c 5092-5127, with `NECO_BURST` < 0 and `read1` = `read0` (the defaults): the result and the data -/
def readDl (cnt : Nat) (dl : Int) : List (Turn SysR) → W → Option (Res × List UInt8 × W)
  | [], _ => none
  | t :: ts, w =>
    let c := checkdl w dl t.now
    let w := c.2
    if c.1 ≠ OK then some (.ret (-1), [], { w with errno := dlErrno c.1 })
    else
      let w := pass w t
      if w.canceled && w.async then some (.exit, [], w)
      else match t.sys with
        | .err e =>
          let w := { w with errno := e }
          if e = sysEINTR ∨ e = sysEAGAIN then readDl cnt dl ts w else some (.ret (-1), [], w)
        | .data bs =>
          let bs := bs.take cnt
          some (.ret bs.length, bs, { w with inp := w.inp ++ bs })

/-- `async_error_guard` at the end of a call, neco.c 3466-3474 -/
def guardA (r : Res) (w : W) : Res × W := match r with
  | .exit => (.exit, w)
  | .ret n =>
    let g := asyncErrorGuard n w.errno false w.async
    (if g.exited then .exit else .ret n, { w with lasterr := g.lasterr })

/-- `error_guard` at the end of a call, neco.c 3453-3458 -/
def guardE (r : Res) (w : W) : Res × W := match r with
  | .exit => (.exit, w)
  | .ret n => (.ret n, { w with lasterr := (errorGuard n w.errno false).lasterr })

/-- `neco_read_dl`, neco.c 5130-5134 -/
def read (cnt : Nat) (dl : Int) (ts : List (Turn SysR)) (w : W) : Option (Res × List UInt8 × W) :=
  match readDl cnt dl ts w with
  | none => none
  | some (r, bs, w) => let g := guardA r w; some (g.1, bs, g.2)

/-- the loop of `write_dl`, neco.c 5262-5299: `d` is what is left, `n` what was written -/
def writeLoop (dl : Int) : List (Turn SysW) → List UInt8 → Nat → W → Option (Res × W)
  | [], _, _, _ => none
  | t :: ts, d, n, w =>
    let c := checkdl w dl t.now
    let w := c.2
    if c.1 ≠ OK then some (.ret (-1), { w with errno := dlErrno c.1, torn := w.torn || decide (0 < n) })
    else match t.sys with
      | .err e =>
        let w := { w with errno := e }
        if e = sysEINTR ∨ e = sysEAGAIN then
          let w := pass w t
          if w.canceled && w.async then some (.exit, { w with torn := w.torn || decide (0 < n) })
          else if d = [] then some (.ret n, w)
          else writeLoop dl ts d n w
        else if n = 0 then some (.ret (-1), w)
        else some (.ret n, w)
      | .acc k =>
        let w := { w with out := w.out ++ d.take k }
        let n := n + (d.take k).length
        let d := d.drop k
        if d = [] then some (.ret n, w)
        else
          let w := pass w t
          if w.canceled && w.async then some (.exit, { w with torn := w.torn || decide (0 < n) })
          else writeLoop dl ts d n w
      | .early k =>
        let w := { w with out := w.out ++ d.take k, torn := w.torn || decide (d.take k ≠ []) }
        if d = [] then some (.ret n, w)
        else
          let w := pass w t
          if w.canceled && w.async then some (.exit, { w with torn := w.torn || decide (0 < n) })
          else writeLoop dl ts d n w

/-- `neco_write_dl`, neco.c 5303-5312 -/
def write (d : List UInt8) (dl : Int) (ts : List (Turn SysW)) (w : W) : Option (Res × W) :=
  match writeLoop dl ts d 0 w with
  | none => none
  | some (r, w) =>
    let g := guardA r w
    match g.1 with
    | .exit => some (.exit, g.2)
    | .ret n => some (.ret n, if 0 ≤ n ∧ n < d.length then { g.2 with lasterr := PARTIALWRITE } else g.2)

/-! ## Streams -/

/-- the memory a buffer can be in: `data[]` of the stream itself, or an allocation for reading or for writing -/
inductive Blk
  | inl
  | hrd
  | hwr
deriving DecidableEq, Repr

/-- `struct neco_stream`, neco.c 7911-7931, with its memory -/
structure Str where
  buffered : Bool
  cap : Nat := 0
  /-- bytes in `data[]` -/
  room : Nat := 0
  rdAt : Option Blk := none
  rdPos : Nat := 0
  rdLen : Nat := 0
  wrAt : Option Blk := none
  wrLen : Nat := 0
  mem : Blk → Nat → UInt8 := fun _ _ => 0
  /-- ghost: blocks allocated besides the stream -/
  heap : List Blk := []
  /-- ghost: an access was not inside of an allocated block -/
  fault : Bool := false

/-- bytes in a block -/
def size (s : Str) : Blk → Nat
  | .inl => s.room
  | _ => s.cap

/-- the bytes of memory from an offset on -/
def cells (m : Nat → UInt8) (off n : Nat) : List UInt8 := (List.range n).map (fun i => m (off + i))

/-- is this inside of the block? -/
def inside (s : Str) (b : Option Blk) (off n : Nat) : Bool := match b with
  | none => decide (n = 0)
  | some b => decide (off + n ≤ size s b)

/-- reading memory -/
def load (s : Str) (b : Option Blk) (off n : Nat) : List UInt8 × Str :=
  (match b with | none => [] | some b => cells (s.mem b) off n, { s with fault := s.fault || !inside s b off n })

/-- memory after writing bytes to it -/
def put (m : Nat → UInt8) (off : Nat) (bs : List UInt8) : Nat → UInt8 :=
  fun k => if off ≤ k ∧ k < off + bs.length then bs.getD (k - off) 0 else m k

/-- writing memory -/
def store (s : Str) (b : Option Blk) (off : Nat) (bs : List UInt8) : Str :=
  { s with
    mem := match b with | none => s.mem | some b => fun b' => if b' = b then put (s.mem b) off bs else s.mem b'
    fault := s.fault || !inside s b off bs.length }

/-- a descriptor with a stream -/
structure S where
  w : W
  st : Str

/-- `sizeof(neco_stream)` with 8 byte pointers -/
def HEADER : Nat := 72

/-- `stream_make_buffered_size`, neco.c 7935-7962: sizes are computed modulo 2^64.  `none`: not enough memory even for the header, so that setting it up writes behind the allocation -/
def make (buffered : Bool) (n : Nat) : Option Str :=
  if buffered then
    let n := if n = 0 then 4096 else n
    let memsize := (HEADER + n) % 2 ^ 64
    if memsize < HEADER then none
    else some { buffered := true, cap := n, room := memsize - HEADER }
  else some { buffered := false }

/-- `stream_release`, neco.c 7984-8000: the blocks given back besides the stream -/
def release (s : Str) : List Blk :=
  if s.buffered then
    (match s.rdAt with | some b => if b ≠ .inl then [b] else [] | none => []) ++
    (match s.wrAt with | some b => if b ≠ .inl then [b] else [] | none => [])
  else []

/-- `ensure_rd_data`, neco.c 8008-8020; `ok`: does an allocation work? -/
def ensureRd (s : Str) (ok : Bool) : Bool × Str :=
  if s.rdAt = none then
    if s.wrAt = none then (true, { s with rdAt := some .inl })
    else if ok then (true, { s with rdAt := some .hrd, heap := s.heap ++ [.hrd] })
    else (false, s)
  else (true, s)

/-- `ensure_wr_data`, neco.c 8022-8034 -/
def ensureWr (s : Str) (ok : Bool) : Bool × Str :=
  if s.wrAt = none then
    if s.rdAt = none then (true, { s with wrAt := some .inl })
    else if ok then (true, { s with wrAt := some .hwr, heap := s.heap ++ [.hwr] })
    else (false, s)
  else (true, s)

/-- the end of `stream_read_dl`, neco.c 8059-8063 -/
def takeRd (s : Str) (n : Nat) : List UInt8 × Str :=
  let n := if s.rdLen < n then s.rdLen else n
  let l := load s s.rdAt s.rdPos n
  (l.1, { l.2 with rdPos := s.rdPos + n, rdLen := s.rdLen - n })

/-- `stream_read_dl`, neco.c 8036-8064 -/
def streamRead0 (s : S) (n : Nat) (dl : Int) (ok : Bool) (ts : List (Turn SysR)) : Option (Res × List UInt8 × S) :=
  if s.st.buffered = false then
    match read n dl ts s.w with
    | none => none
    | some (r, bs, w) => some (r, bs, { s with w := w })
  else
    let e := ensureRd s.st ok
    if e.1 = false then some (.ret NOMEM, [], { s with st := e.2 })
    else if e.2.rdLen = 0 then
      match read e.2.cap dl ts s.w with
      | none => none
      | some (.exit, _, w) => some (.exit, [], { w := w, st := e.2 })
      | some (.ret r, bs, w) =>
        if r = -1 then some (.ret (fromSys w.errno), [], { w := w, st := e.2 })
        else
          let st := { store e.2 e.2.rdAt 0 bs with rdLen := r.toNat, rdPos := 0 }
          let x := takeRd st n
          some (.ret x.1.length, x.1, { w := w, st := x.2 })
    else
      let x := takeRd e.2 n
      some (.ret x.1.length, x.1, { s with st := x.2 })

/-- `neco_stream_read_dl`, neco.c 8066-8075 -/
def streamRead (s : S) (n : Nat) (dl : Int) (ok : Bool) (ts : List (Turn SysR)) : Option (Res × List UInt8 × S) :=
  match streamRead0 s n dl ok ts with
  | none => none
  | some (r, bs, s) =>
    let r := if r = .ret 0 ∧ n > 0 ∧ s.w.lasterr = OK then .ret EOF else r
    let g := guardE r s.w
    some (g.1, bs, { s with w := g.2 })

/-- the loop of `stream_readfull_dl`, neco.c 8081-8099: one list of turns for each round; `got`: the data so far -/
def readFullLoop (dl : Int) (ok : Bool) : List (List (Turn SysR)) → Nat → List UInt8 → S → Option (Res × List UInt8 × S)
  | [], _, _, _ => none
  | ts :: tss, n, got, s =>
    match streamRead s n dl ok ts with
    | none => none
    | some (.exit, bs, s) => some (.exit, got ++ bs, s)
    | some (.ret r, bs, s) =>
      if r ≤ 0 then some (if got = [] then .ret r else .ret got.length, got ++ bs, s)
      else
        let got := got ++ bs
        let n := n - r.toNat
        if n > 0 then readFullLoop dl ok tss n got s else some (.ret got.length, got, s)

/-- `neco_stream_readfull_dl`, neco.c 8101-8107 -/
def readFull (s : S) (n : Nat) (dl : Int) (ok : Bool) (tss : List (List (Turn SysR))) : Option (Res × List UInt8 × S) :=
  match readFullLoop dl ok tss n [] s with
  | none => none
  | some (r, bs, s) => let g := guardE r s.w; some (g.1, bs, { s with w := g.2 })

/-- `neco_stream_read_byte_dl`, neco.c 8131-8147; `now`: the time at its check -/
def readByte (s : S) (dl now : Int) (ok : Bool) (ts : List (Turn SysR)) : Option (Res × List UInt8 × S) :=
  if s.st.buffered ∧ s.st.rdLen > 0 then
    let c := checkdl s.w dl now
    if c.1 = OK then
      let l := load s.st s.st.rdAt s.st.rdPos 1
      some (.ret ((l.1.getD 0 0).toNat), l.1, { w := c.2, st := { l.2 with rdPos := s.st.rdPos + 1, rdLen := s.st.rdLen - 1 } })
    else slow { s with w := c.2 }
  else slow s
where
  /-- neco.c 8141-8144 -/
  slow (s : S) : Option (Res × List UInt8 × S) :=
    match streamRead s 1 dl ok ts with
    | none => none
    | some (.exit, bs, s) => some (.exit, bs, s)
    | some (.ret r, bs, s) => if r ≠ 1 then some (.ret r, bs, s) else some (.ret ((bs.getD 0 0).toNat), bs, s)

/-- `neco_stream_unread_byte`, neco.c 8154-8172 -/
def unread (s : S) : Int × S :=
  if s.st.buffered = false ∨ s.st.rdPos = 0 then (UNREADFAIL, { s with w := { s.w with lasterr := UNREADFAIL } })
  else (OK, { w := { s.w with lasterr := 0 }, st := { s.st with rdPos := s.st.rdPos - 1, rdLen := s.st.rdLen + 1 } })

/-- `stream_flush_dl`, neco.c 8174-8201 -/
def flush0 (s : S) (dl now : Int) (ts : List (Turn SysW)) : Option (Res × S) :=
  if s.st.buffered = false then
    let c := checkdl s.w dl now
    some (.ret c.1, { s with w := c.2 })
  else
    let l := load s.st s.st.wrAt 0 s.st.wrLen
    match write l.1 dl ts s.w with
    | none => none
    | some (.exit, w) => some (.exit, { w := w, st := l.2 })
    | some (.ret n, w) =>
      if n ≤ 0 then
        if n = 0 ∧ s.st.wrLen = 0 then some (.ret OK, { w := w, st := l.2 })
        else some (.ret (fromSys w.errno), { w := w, st := l.2 })
      else if n < s.st.wrLen then
        let m := load l.2 s.st.wrAt n.toNat (s.st.wrLen - n.toNat)
        some (.ret PARTIALWRITE, { w := w, st := { store m.2 s.st.wrAt 0 m.1 with wrLen := s.st.wrLen - n.toNat } })
      else some (.ret OK, { w := w, st := { l.2 with wrLen := 0 } })

/-- `neco_stream_flush_dl`, neco.c 8204-8208 -/
def flush (s : S) (dl now : Int) (ts : List (Turn SysW)) : Option (Res × S) :=
  match flush0 s dl now ts with
  | none => none
  | some (r, s) => let g := guardA r s.w; some (g.1, { s with w := g.2 })

/-- copying into the buffer, neco.c 8242-8248: how many bytes, and the stream -/
def copyWr (s : Str) (d : List UInt8) : Nat × Str :=
  let n := s.cap - s.wrLen
  let n := if n < d.length then n else d.length
  (n, { store s s.wrAt s.wrLen (d.take n) with wrLen := s.wrLen + n })

/-- the loop of `stream_write_dl`, neco.c 8230-8250: one list of turns for each round; also how many bytes were copied -/
def streamWriteLoop (dl now : Int) : List (List (Turn SysW)) → List UInt8 → Nat → S → Option (Res × Nat × S)
  | tss, d, n, s =>
    if d = [] then some (.ret n, n, s)
    else match tss with
      | [] => none
      | ts :: tss =>
        if s.st.wrLen = s.st.cap then
          match flush s dl now ts with
          | none => none
          | some (.exit, s) => some (.exit, n, s)
          | some (.ret r, s) =>
            if r ≠ OK then some (if n = 0 then .ret r else .ret n, n, s)
            else
              let c := copyWr s.st d
              streamWriteLoop dl now tss (d.drop c.1) (n + c.1) { s with st := c.2 }
        else
          let c := copyWr s.st d
          streamWriteLoop dl now tss (d.drop c.1) (n + c.1) { s with st := c.2 }

/-- `stream_write_dl`, neco.c 8215-8251; also how many bytes were copied -/
def streamWrite0 (s : S) (d : List UInt8) (dl now : Int) (ok : Bool) (tss : List (List (Turn SysW))) : Option (Res × Nat × S) :=
  if s.st.buffered = false then
    match write d dl tss.head?.toList.flatten s.w with
    | none => none
    | some (.exit, w) => some (.exit, 0, { s with w := w })
    | some (.ret n, w) => some (.ret n, n.toNat, { s with w := w })
  else
    let e := ensureWr s.st ok
    if e.1 = false then some (.ret NOMEM, 0, { s with st := e.2 })
    else streamWriteLoop dl now tss d 0 { s with st := e.2 }

/-- `neco_stream_write_dl`, neco.c 8253-8259 -/
def streamWrite (s : S) (d : List UInt8) (dl now : Int) (ok : Bool) (tss : List (List (Turn SysW))) : Option (Res × Nat × S) :=
  match streamWrite0 s d dl now ok tss with
  | none => none
  | some (r, k, s) => let g := guardA r s.w; some (g.1, k, { s with w := g.2 })

/-- `neco_stream_close_dl`, neco.c 8282-8304: the result, the stream as it was when it was released and the blocks given back; `none` for both if the coroutine was terminated before -/
def close (s : S) (dl now : Int) (ts : List (Turn SysW)) : Option (Res × S × Option (List Blk)) :=
  if s.st.buffered ∧ (dl < MAX ∨ s.st.wrLen > 0) then
    match flush0 s dl now ts with
    | none => none
    | some (.exit, s) => some (.exit, s, none)
    | some (.ret r, s) => let g := guardE (.ret r) s.w; some (g.1, { s with w := g.2 }, some (release s.st))
  else let g := guardE (.ret OK) s.w; some (g.1, { s with w := g.2 }, some (release s.st))

/-- `neco_stream_buffered_read_size`, neco.c 8113-8128 -/
def bufferedRead (s : Str) : Int := if s.buffered = false then 0 else s.rdLen
/-- `neco_stream_buffered_write_size`, neco.c 8265-8280 -/
def bufferedWrite (s : Str) : Int := if s.buffered = false then 0 else s.wrLen

/-- what can happen to a stream -/
inductive Act
  | read (n : Nat) (dl : Int) (ok : Bool) (ts : List (Turn SysR))
  | readFull (n : Nat) (dl : Int) (ok : Bool) (tss : List (List (Turn SysR)))
  | readByte (dl now : Int) (ok : Bool) (ts : List (Turn SysR))
  | unread
  | write (d : List UInt8) (dl now : Int) (ok : Bool) (tss : List (List (Turn SysW)))
  | flush (dl now : Int) (ts : List (Turn SysW))
  /-- something else: other calls, another coroutine uses the stream from now on, it is canceled -/
  | other (canceled deadlined async : Bool) (errno lasterr : Int)

/-- what a user of the stream sees of a call -/
inductive Ev
  /-- a call that reads (also of a byte): result and the bytes put in the user's buffer -/
  | read (r : Res) (bs : List UInt8)
  | unread (r : Int)
  /-- a write: the data, the result; and what was taken of it when the coroutine is terminated -/
  | write (d : List UInt8) (r : Res) (k : Nat)
  | flush (r : Res)
  | other
deriving DecidableEq, Repr

/-- one call -/
def step (s : S) : Act → Option (Ev × S)
  | .read n dl ok ts => (streamRead s n dl ok ts).map (fun x => (.read x.1 x.2.1, x.2.2))
  | .readFull n dl ok tss => (readFull s n dl ok tss).map (fun x => (.read x.1 x.2.1, x.2.2))
  | .readByte dl now ok ts => (readByte s dl now ok ts).map (fun x => (.read x.1 x.2.1, x.2.2))
  | .unread => some (.unread (unread s).1, (unread s).2)
  | .write d dl now ok tss => (streamWrite s d dl now ok tss).map (fun x => (.write d x.1 x.2.1, x.2.2))
  | .flush dl now ts => (flush s dl now ts).map (fun x => (.flush x.1, x.2))
  | .other c d a e l => some (.other, { s with w := { s.w with canceled := c, deadlined := d, async := a, errno := e, lasterr := l } })

/-- the histories of a stream; `ok` restricts the calls -/
inductive Reach (ok : Act → Prop) (buffered : Bool) (n : Nat) : List Ev → S → Prop
  | make {st : Str} (w : W) (h : make buffered n = some st) (hi : w.inp = []) (ho : w.out = []) (ht : w.torn = false) : Reach ok buffered n [] { w := w, st := st }
  | step {l : List Ev} {s s' : S} {e : Ev} (r : Reach ok buffered n l s) (a : Act) (h : ok a) (hs : step s a = some (e, s')) : Reach ok buffered n (l ++ [e]) s'

end Neco.Io
