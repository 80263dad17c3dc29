import Verif.Model.Rt
/-!
# What a call concerns, and what is seen of an object
-/
namespace Neco.Rt

/-- the objects coroutines work on together: channels, mutexes, wait groups, condition variables -/
inductive Thing
  | chan (c : Nat)
  | mu (m : Nat)
  | wg (w : Nat)
  | cv (v : Nat)
deriving DecidableEq, Repr

/-- the objects a call names.  `g` is the channel of the generator the caller is, which is what `neco_gen_yield` sends on. -/
def Call.things (g : Option Nat) : Call → List Thing
  | .chRetain c | .chRelease c | .send c _ _ | .bcast c _ | .recv c _ | .tryrecv c | .close c | .chCase c => [.chan c]
  | .select cs _ | .tryselect cs => cs.map .chan
  | .genYield _ _ => g.toList.map .chan
  | .lock m _ | .rdlock m _ | .trylock m | .tryrdlock m | .unlock m => [.mu m]
  | .wgAdd w _ | .wgDone w | .wgWait w _ => [.wg w]
  | .cvSignal v | .cvBcast v => [.cv v]
  | .cvWait v m _ => [.cv v, .mu m]
  | _ => []

/-- the queue of those who wait at an object -/
def Thing.q : Thing → LName
  | .chan c => .chanQ c
  | .mu m => .muQ m
  | .wg w => .wgQ w
  | .cv v => .cvQ v

/-- the object itself is the same in both states: the content, flags and references of a channel, the state of a mutex, the
counter of a wait group -/
def Thing.kept (s s' : S) : Thing → Prop
  | .chan c => s'.chan c = s.chan c
  | .mu m => s'.mu m = s.mu m
  | .wg w => s'.wg w = s.wg w
  | .cv _ => True

/-- the object is the same, and the same wait at it in the same order -/
def Thing.same (s s' : S) (t : Thing) : Prop := t.kept s s' ∧ s'.lists t.q = s.lists t.q

/-- the places where the end of a generator closes and releases its channel -/
def Pc.ends : Pc → Bool
  | .exitRun _ => true
  | .go (.genRel _ _) => true
  | _ => false

/-- what happens concerns the object `t`: the running coroutine makes or is in a call that names it, makes it, or is a generator
that ends and `t` is its channel; or the background work of a coroutine ends that is in such a call -/
def Concerns (s : S) (t : Thing) : Act → Prop
  | .call c => ∃ i, s.sco.cur = some i ∧ (t ∈ c.things (s.co i).gen ∨ ((c = .genStart ∨ ∃ n, c = .chMake n) ∧ t = .chan s.nchan))
  | .tau => ∃ i, s.sco.cur = some i ∧ (t ∈ (s.co i).call.things (s.co i).gen ∨ ((s.co i).pc.ends = true ∧ ∃ g, (s.co i).gen = some g ∧ t = .chan g))
  | .wdone i => t ∈ (s.co i).call.things (s.co i).gen
  | _ => False

/-- what a coroutine has set for itself, and what it was told about its relatives: cancelation type and state, cleanup handlers,
watched signals, the last coroutine it started, the one that started it -/
def Co.own (k : Co) : Bool × Bool × List Nat × Nat × Nat × Nat := (k.async, k.enabled, k.cleanup, k.sigwatch, k.lastid, k.starterid)

/-- none of these steps, taken from `s`, concerns `t` -/
def Spares (t : Thing) : S → List Act → Prop
  | _, [] => True
  | s, a :: as => ¬ Concerns s t a ∧ ∀ s1, step s a = some s1 → Spares t s1 as

end Neco.Rt
