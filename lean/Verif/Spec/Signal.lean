import Verif.Spec.Stats
/-!
# Signals, read off the history
-/
namespace Neco.Rt

/-- how many times signal `n` arrived -/
def arrived (n : Nat) (l : List Ev) : Nat := l.countP (fun e => e == .sig n)
/-- an event that hands signal `n` to a coroutine -/
def isSigTo (n : Nat) : Ev → Bool
  | .sigTo m _ => m == n
  | _ => false
/-- how many times signal `n` was handed to a coroutine -/
def delivered (n : Nat) (l : List Ev) : Nat := l.countP (isSigTo n)

/-- coroutine `i` watches signal `n`: its last `neco_signal_watch` or `neco_signal_unwatch` of a valid `n` was a watch -/
def watches (i n : Nat) : List Ev → Bool
  | [] => false
  | .call k (.sigWatch m) :: l => if k = i ∧ m = n ∧ 1 ≤ n ∧ n ≤ 31 then true else watches i n l
  | .call k (.sigUnwatch m) :: l => if k = i ∧ m = n ∧ 1 ≤ n ∧ n ≤ 31 then false else watches i n l
  | _ :: l => watches i n l

/-- no coroutine is started in a control block in which the earlier user left watched signals -/
def NoOldWatch (s : S) (a : Act) : Prop := a = .call .start ∨ a = .call .genStart → ∀ p, s.pool.head? = some p → p.1.sigwatch = 0

/-- in addition, whenever signal `n` arrives or has arrived more often than it was handed out, some coroutine watches it -/
def StillWatched (n : Nat) (s : S) (a : Act) : Prop :=
  NoOldWatch s a ∧ (a = .signal n ∨ delivered n s.log < arrived n s.log → ∃ j, watches j n s.log = true)

/-- an event that hands a signal to coroutine `i` -/
def toldBy (i : Nat) : Ev → Bool
  | .sigTo _ k => k == i
  | _ => false

/-- the main loop is about to look at the signals -/
def AtSignals (s : S) : Prop := s.sco.cur = none ∧ s.main = .sig ∧ s.dead = false ∧ s.fault = false

end Neco.Rt
