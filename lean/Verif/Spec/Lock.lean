import Verif.Spec.Rt
/-!
# Who holds a mutex

Read off the history alone: a mutex is given to coroutines (`grant`, for reading or for writing) and given back by
`neco_mutex_unlock` and by `neco_cond_wait` when it starts to wait (`release`).
-/
namespace Neco.Rt
open Neco.Err

/-- the coroutines that were given mutex `m` and did not release it since, each with `true` if it is for reading -/
def holders (m : Nat) : List Ev → List (Nat × Bool)
  | [] => []
  | .grant k i rd :: l => if k = m then (i, rd) :: holders m l else holders m l
  | .release k i :: l => if k = m then (holders m l).eraseP (fun e => e.1 == i) else holders m l
  | _ :: l => holders m l

/-- coroutines only release mutexes they hold -/
def Disciplined (l : List Ev) : Prop := ∀ a b m i, l = a ++ .release m i :: b → ∃ rd, (i, rd) ∈ holders m b

/-- `i` is blocked, and nothing made it ready yet -/
def Asleep (s : S) (i : Nat) : Prop := Blocked s i ∧ ¬ Waking s i

/-- the call that asks for mutex `m`, for reading or for writing -/
def lockCall (m : Nat) (rd : Bool) (dl : Int) : Call := if rd = true then .rdlock m dl else .lock m dl

/-- the calls that take a mutex (for reading, `rd`) -/
def Call.takes (m : Nat) (rd : Bool) : Call → Prop
  | .lock k _ => k = m ∧ rd = false
  | .trylock k => k = m ∧ rd = false
  | .rdlock k _ => k = m ∧ rd = true
  | .tryrdlock k => k = m ∧ rd = true
  | _ => False

/-- `i` waits for mutex `m` in `neco_mutex_lock` or (`rd`) `neco_mutex_rdlock` -/
def Awaits (s : S) (m i : Nat) (rd : Bool) : Prop := Asleep s i ∧ ∃ dl, pending i s.log = some (lockCall m rd dl)

/-- the call `j` is in was made before the one `i` is in -/
def CalledBefore (j i : Nat) (l : List Ev) : Prop := (since i l).length < (since j l).length

/-- the queue of mutex `m`, first in line first, each coroutine with `true` if it wants the mutex for reading -/
def queue (s : S) (m : Nat) : List (Nat × Bool) := (s.lists (.muQ m)).map (fun n => (n.owner, (s.co n.owner).rlocked))

/-- who is next: the first in line, or, if it is a reader, all the readers up to the first writer -/
def nextUp : List (Nat × Bool) → List (Nat × Bool)
  | [] => []
  | (i, true) :: q => (i, true) :: q.takeWhile (fun e => e.2)
  | (i, false) :: _ => [(i, false)]

end Neco.Rt
