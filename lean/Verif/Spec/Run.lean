import Verif.Model.Run

/-! # What a runtime leaves behind: specification

Written only with what an observer of the process sees: what is allocated, open and installed, and the calls of `neco_start` outside of a runtime
with their results. -/

namespace Neco.Run

/-- thread `t` is not inside of `neco_start` -/
def Outside (w : W) (t : Nat) : Prop := (w.th t).pc = .out

/-- nothing that a runtime of thread `t` has allocated is still allocated -/
def NoMemory (w : W) (t : Nat) : Prop := ∀ b, w.heap b ≠ some (.rt t)
/-- no event queue of a runtime of thread `t` is open -/
def NoQueue (w : W) (t : Nat) : Prop := ∀ f, w.fds f ≠ some (.rt t)

/-- since the last call of `neco_start` by thread `t` (newest event first) its coroutine has started -/
def ranSince (t : Nat) : List Ev → Bool
  | [] => false
  | .call u :: q => if u = t then false else ranSince t q
  | .ran u :: q => if u = t then true else ranSince t q
  | .born _ _ :: q => ranSince t q
  | .ret _ _ :: q => ranSince t q

/-- the ids of all runtimes there have been -/
def ids : List Ev → List Nat
  | [] => []
  | .born _ n :: q => n :: ids q
  | .call _ :: q => ids q
  | .ran _ :: q => ids q
  | .ret _ _ :: q => ids q

/-! ## Restrictions used by the partial theorems -/

/-- anything -/
def Any (_ : W) (_ : Act) : Prop := True

/-- the kernel does not give descriptor 0 to an event queue (standard input is open) -/
def NoZero (_ : W) : Act → Prop
  | .wait _ _ q => q ≠ some 0
  | _ => True

/-- a coroutine does not end while its job is in a worker thread -/
def Patient (w : W) : Act → Prop
  | .endco t b => ∀ r, (w.th t).rt = some r → b ∉ r.jobs
  | _ => True

/-- no allocation fails -/
def Plenty (_ : W) : Act → Prop
  | .call _ ok => ok = true
  | .tau _ ok => ∀ i, ok i = true
  | _ => True

/-- the program leaves dispositions alone while its main thread is in `neco_start` -/
def Hands (w : W) : Act → Prop
  | .sigaction _ _ => Outside w 0
  | _ => True

/-- the disposition runs a handler on the alternate stack -/
def stacked : Disp → Bool
  | .neco => true
  | .user _ b => b
  | _ => false

/-- thread 0 is between `sigaltstack` and the tear-down -/
def early : Pc → Bool
  | .set _ => true
  | .work => true
  | .start => true
  | .run => true
  | .fin => true
  | _ => false

/-- a signal for which neco has a handler arrives only in a thread that has a runtime, never in a worker thread, and one that is handled on the alternate
stack arrives in the main thread only between set-up and tear-down of its runtime, or before it ever called `neco_start` -/
def Calm (w : W) : Act → Prop
  | .signal t n => (w.handler n = .neco → (w.th t).rt ≠ none) ∧
      (t = 0 → stacked (w.handler n) = true → early (w.th t).pc = true ∨ Ev.call 0 ∉ w.log)
  | .wsignal _ n => w.handler n ≠ .neco
  | _ => True

/-! ## What a signal does -/

/-- some coroutine of thread `t` watches signal `n` -/
def Watched (w : W) (t n : Nat) : Prop := ∃ r, (w.th t).rt = some r ∧ r.sigwatchers n ≠ 0

/-- how many signals `n` the runtime of thread `t` has queued for its watchers -/
def queued (w : W) (t n : Nat) : Nat := ((w.th t).rt.map (fun r => r.sigqueue n)).getD 0

end Neco.Run
