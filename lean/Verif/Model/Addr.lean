import Verif.Model.Err
/-! # TCP address parsing (neco.c 6722-6753) -/
namespace Neco.Addr

/-- `addr[i]` for a C string with content `s` (no NUL inside): the terminating NUL at index `length`
is readable, anything beyond (or the huge index obtained by unsigned underflow) is a fault. -/
def rd (s : List UInt8) (i : Int) : Option UInt8 :=
  if 0 ≤ i ∧ i < s.length then s[i.toNat]?
  else if i = s.length then some 0
  else none

/-- the backwards scan for the last colon, neco.c 6728-6736 (`i` counts down to 0);
outer `none` = out of bounds read, inner `none` = no colon found -/
def scan (s : List UInt8) : Nat → Option (Option Nat)
  | 0 => do
    let c ← rd s 0
    if c = 58 then pure (some 0) else pure none
  | i + 1 => do
    let c ← rd s (i + 1 : Nat)
    if c = 58 then pure (some (i + 1)) else scan s i

inductive Result
  | err (code : Int)
  | ok (host port : List UInt8)
deriving DecidableEq, Repr

/-- `parse_tcp_addr`, neco.c 6722-6753. `allocOk`: `malloc0` succeeds. `none` = out of bounds access.
`&&` evaluates its right operand only if the left one holds. -/
def parse (s : List UInt8) (allocOk : Bool) : Option Result := do
  let naddr := s.length
  if naddr = 0 then return .err Err.INVAL
  let colon ← scan s (naddr - 1)
  match colon with
  | none => return .err Err.INVAL
  | some c =>
    let port := s.drop (c + 1)
    let naddr : Int := c
    let c0 ← rd s 0
    let strip ← (if c0 = 91 then do let e ← rd s (naddr - 1); pure (decide (e = 93)) else pure false)
    let off : Nat := if strip then 1 else 0
    let naddr : Int := if strip then naddr - 2 else naddr
    -- `memcpy(host, addr, naddr)`: a negative length would be a huge unsigned one
    if naddr < 0 ∨ s.length < off + naddr.toNat then failure
    if !allocOk then return .err Err.NOMEM
    return .ok ((s.drop off).take naddr.toNat) port

end Neco.Addr
