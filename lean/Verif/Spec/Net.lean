import Verif.Model.Net
import Verif.Props.Addr

/-! # Specification: dialing, serving, accepting -/

namespace Neco.Net
open Neco.Io

/-- the call has left nothing: no open descriptor, no memory; and it did not close or free something it did not have -/
def Nothing (t : S) : Prop := t.fds = [] ∧ t.mem = [] ∧ t.fault = false

/-- the only thing the call has left is descriptor `n`, a socket `k` -/
def Only (t : S) (n : Int) (k : Sock) : Prop := t.fds = [(n.toNat, k)] ∧ 0 ≤ n ∧ t.mem = [] ∧ t.fault = false

/-- the addresses an API call is about: the path, or what the lookup gave -/
def targets (network : String) (address : List UInt8) (x : Look) : List Addr :=
  if network = "unix" then [.unix address] else match x.res with
    | .ok _ l => l
    | _ => []

/-- the address family that belongs to a network: unspecified, `AF_INET`, `AF_INET6` -/
def family (network : String) : Nat := if network = "tcp4" then 2 else if network = "tcp6" then 10 else 0

/-- what the resolver has to be asked for: the host before the last colon (without brackets; any address of this computer if it is empty), the port
after it, and the family of the network -/
def Asked (network : String) (address : List UInt8) (q : List UInt8 × List UInt8 × Nat) : Prop := ∃ pre port host,
  address = pre ++ 58 :: port ∧ 58 ∉ port ∧ Addr.Stripped pre host ∧
  q = (if host ≠ [] then host else if network = "tcp6" then "::".toUTF8.toList else "0.0.0.0".toUTF8.toList, port, family network)

end Neco.Net
