import Verif.Model.Worker

/-! # Specification: background workers -/

namespace Neco.Worker

/-- whatever `pthread_create` does within POSIX -/
def Posix (a : Act) : Prop := ∀ j, a ≠ .submit j .minus1
/-- `pthread_create` always works -/
def Threads (a : Act) : Prop := ∀ j c, a = .submit j c → c = .ok

/-- the jobs in the ring, next first -/
def queue (t : T) : List Nat := (List.range t.len).map (fun i => t.entries ((t.pos + i) % t.nentries))

/-- the job being carried out -/
def running (t : T) : List Nat := match t.pc with
  | .busy j => [j]
  | _ => []

/-- how many a caller gets who asks for `n`: a default for `n ≤ 0`, and at most 65536 -/
def asked (default : Nat) (n : Int) : Int := if 0 < n then min n 65536 else default

/-- steps needed to finish everything -/
def work (t : T) : Nat := 2 * t.len + (match t.pc with | .busy _ => 1 | .wait => if t.len = 0 then 0 else 1 | _ => 0)

end Neco.Worker
