import Verif.Model.Io

/-!
# Writing to a standard stream whose reader is gone

Models `write1` (neco.c 5177-5185) below the loop of `write_dl` (neco.c 5252-5300) and `neco_write_dl`
(neco.c 5303-5312): `Verif.Model.Io` has the same loop without the end of the process.

Simplifications: those of `Verif.Model.Io`; a worker thread that finds the pipe broken after the coroutine was
woken early (`SysW.early`) is not modelled (it would end the process at a later time). -/

namespace Neco.Out
open Neco.Err Neco.Io

/-- `EPIPE`, asm-generic/errno-base.h -/
def sysEPIPE : Int := 32

/-- how a call ends: the process is gone with this status (`_Exit`), or as in `Verif.Model.Io` -/
inductive End
  | died (status : Int) (w : W)
  | ended (r : Res) (w : W)

/-- `n == -1 && errno == EPIPE && (fd == 1 || fd == 2)`, neco.c 5180 -/
def broken (fd : Int) : SysW → Bool
  | .err e => decide (e = sysEPIPE ∧ (fd = 1 ∨ fd = 2))
  | _ => false

/-- the loop of `write_dl`, neco.c 5262-5299, over `write1`, neco.c 5177-5185 -/
def writeLoop (fd dl : Int) : List (Turn SysW) → List UInt8 → Nat → W → Option End
  | [], _, _, _ => none
  | t :: ts, d, n, w =>
    let c := checkdl w dl t.now
    let w := c.2
    if c.1 ≠ OK then some (.ended (.ret (-1)) { w with errno := dlErrno c.1, torn := w.torn || decide (0 < n) })
    else if broken fd t.sys then some (.died (128 + sysEPIPE) { w with errno := sysEPIPE })
    else match t.sys with
      | .err e =>
        let w := { w with errno := e }
        if e = sysEINTR ∨ e = sysEAGAIN then
          let w := pass w t
          if w.canceled && w.async then some (.ended .exit { w with torn := w.torn || decide (0 < n) })
          else if d = [] then some (.ended (.ret n) w)
          else writeLoop fd dl ts d n w
        else if n = 0 then some (.ended (.ret (-1)) w)
        else some (.ended (.ret n) w)
      | .acc k =>
        let w := { w with out := w.out ++ d.take k }
        let n := n + (d.take k).length
        let d := d.drop k
        if d = [] then some (.ended (.ret n) w)
        else
          let w := pass w t
          if w.canceled && w.async then some (.ended .exit { w with torn := w.torn || decide (0 < n) })
          else writeLoop fd dl ts d n w
      | .early k =>
        let w := { w with out := w.out ++ d.take k, torn := w.torn || decide (d.take k ≠ []) }
        if d = [] then some (.ended (.ret n) w)
        else
          let w := pass w t
          if w.canceled && w.async then some (.ended .exit { w with torn := w.torn || decide (0 < n) })
          else writeLoop fd dl ts d n w

/-- `neco_write_dl`, neco.c 5303-5312 -/
def write (fd : Int) (d : List UInt8) (dl : Int) (ts : List (Turn SysW)) (w : W) : Option End :=
  match writeLoop fd dl ts d 0 w with
  | none => none
  | some (.died c w) => some (.died c w)
  | some (.ended r w) =>
    let g := guardA r w
    match g.1 with
    | .exit => some (.ended .exit g.2)
    | .ret n => some (.ended (.ret n) (if 0 ≤ n ∧ n < d.length then { g.2 with lasterr := PARTIALWRITE } else g.2))

end Neco.Out
