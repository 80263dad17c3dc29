import Verif.Model.Io

/-! # The read loop with `NECO_BURST` ≥ 0

Models `read_dl`, neco.c 5092-5127, in the configurations in which `NECO_BURST` is not negative: `read` is tried first, and only when it has to be
tried again does the coroutine yield, or wait for the descriptor in every (`NECO_BURST` + 1)-th such round.  The default is -1 (neco.c 55, modelled in `Model/Io.lean`),
with `NECO_TESTING` it is at least 1 (neco.c 96-98): the library's own tests run this loop, and its users the other one. -/

namespace Neco.Burst
open Neco.Err Neco.Io

/-- one round of the loop; `others`: what `rt->burstcount` is when the coroutine goes on, given what it left there: other coroutines read too -/
structure Round extends Turn SysR where
  others : Nat → Nat := id

/-- `sco_yield`, neco.c 5116: the coroutine is not in the queue of deadlines, so it is not marked as expired; and it does return when it is canceled -/
def scoYield (w : W) (t : Round) : W := { w with canceled := w.canceled || t.cancel }

/-- `read_dl`, neco.c 5092-5127, with `NECO_BURST` = `burst` ≥ 0; `n` is `rt->burstcount` (neco.c 3632).  The result, the data, and the counter -/
def readDl (burst cnt : Nat) (dl : Int) : List Round → Nat → W → Option (Res × List UInt8 × Nat × W)
  | [], _, _ => none
  | t :: ts, n, w =>
    let c := checkdl w dl t.now
    let w := c.2
    if c.1 ≠ OK then some (.ret (-1), [], n, { w with errno := dlErrno c.1 })
    else match t.sys with
      | .err e =>
        let w := { w with errno := e }
        if e = sysEINTR ∨ e = sysEAGAIN then
          if n = burst then
            let w := pass w t.toTurn
            if w.canceled && w.async then some (.exit, [], 0, w)
            else readDl burst cnt dl ts (t.others 0) w
          else readDl burst cnt dl ts (t.others (n + 1)) (scoYield w t)
        else some (.ret (-1), [], n, w)
      | .data bs =>
        let bs := bs.take cnt
        some (.ret bs.length, bs, n, { w with inp := w.inp ++ bs })

/-- `neco_read_dl`, neco.c 5130-5134 -/
def read (burst cnt : Nat) (dl : Int) (ts : List Round) (n : Nat) (w : W) : Option (Res × List UInt8 × Nat × W) :=
  match readDl burst cnt dl ts n w with
  | none => none
  | some (r, bs, n, w) => let g := guardA r w; some (g.1, bs, n, g.2)

end Neco.Burst
