import Verif.Model.Conc
/-!
# Specification: background threads do not disturb the queues
-/
namespace Neco.Conc
open Neco.Colist

/-- The rules: the thread of the runtime works on queues and coroutines that exist and that it has not handed to a background thread (or has got back since), and hands
over only coroutines that are on no queue. This is what the code does as long as a coroutine in `neco_work` is not canceled. -/
def Rules (s : S) : Act → Prop
  | .begin o => s.own.step o ≠ none
  | .submit n => n ∈ s.own.nodes ∧ ∀ i, n ∉ s.own.q i
  | _ => True

/-- the start: the memory holds the queues, `rt->iolist` is the list 0, and no coroutine is on both sides -/
structure Start (s : S) : Prop where
  own : Holds s.mem s.own
  io : Holds s.mem s.io
  iol : s.io.lists = [0]
  ownl : 0 ∉ s.own.lists
  disj : ∀ n ∈ s.own.nodes, n ∉ s.io.nodes
  mop : s.mop = none
  crit : s.crit = none
  tasks : s.tasks = []
  log : s.log = s.spec

/-- the next access of an operation in progress -/
def Run.next (r : Run) : Option (Addr × Bool) :=
  match r.code with
  | [] => none
  | c :: _ => (c.at r.regs).map (fun a => (a, c.writes))

/-- a data race: two threads are about to access the same place, and one of them writes -/
def Race (s : S) : Prop := ∃ r w k a x y, s.mop = some r ∧ s.crit = some (w, k) ∧ r.next = some (a, x) ∧ k.next = some (a, y) ∧ (x = true ∨ y = true)

end Neco.Conc
