import Verif.Model.Io

/-! # Specification: reading and writing -/

namespace Neco.Io

/-- the data a user has got from a stream, in order; a byte that is put back is taken off again -/
def returned : List Ev → List UInt8
  | l => l.foldl (fun acc e => match e with
    | .read _ bs => acc ++ bs
    | .unread r => if r = 0 then acc.dropLast else acc
    | _ => acc) []

/-- the data that calls of write reported as written -/
def reported : List Ev → List UInt8
  | l => l.foldl (fun acc e => match e with
    | .write d (.ret r) _ => acc ++ d.take r.toNat
    | .write d .exit k => acc ++ d.take k
    | _ => acc) []

/-- bytes in the buffer for reading -/
def rdBuf (s : Str) : List UInt8 := match s.rdAt with
  | none => []
  | some b => cells (s.mem b) s.rdPos s.rdLen
/-- bytes in the buffer for reading that were read -/
def past (s : Str) : List UInt8 := match s.rdAt with
  | none => []
  | some b => cells (s.mem b) 0 s.rdPos
/-- bytes in the buffer for writing -/
def wrBuf (s : Str) : List UInt8 := match s.wrAt with
  | none => []
  | some b => cells (s.mem b) 0 s.wrLen

/-- the size of the memory of a stream can be computed: there are 72 bytes of header -/
def Fits (n : Nat) : Prop := 72 + n < 2 ^ 64

/-- in this turn nobody cancels the coroutine, nothing expires, and the worker thread is waited for -/
def Calm (t : Turn SysW) : Prop := t.cancel = false ∧ t.expire = false ∧ ∀ k, t.sys ≠ .early k

/-- nothing disturbs the calls that write -/
def Undisturbed : Act → Prop
  | .write _ dl _ _ tss => dl = MAX ∧ ∀ ts ∈ tss, ∀ t ∈ ts, Calm t
  | .flush dl _ ts => dl = MAX ∧ ∀ t ∈ ts, Calm t
  | _ => True

/-- anything -/
def any (_ : Act) : Prop := True

end Neco.Io
