import Verif.Model.Llco
/-!
# Specification: a stack is given back when nobody needs it any more
-/
namespace Neco.Llco

/-- what a user of llco may do: not from inside a cleanup function; start contexts on a stack that no context uses that still has it; switch to contexts that exist, were made and left and have not ended;
not end the thread; not return from the function of a context. -/
def Rules (s : S) : Act → Prop
  | .start d final => s.pc = .user ∧ (∀ k, 0 < k → k ≤ s.made → s.gone k = false → s.place k ≠ d.stack) ∧ (final = true → s.on ≠ 0)
  | .switch co final => s.pc = .user ∧ co.getD 0 ≤ s.made ∧ co.getD 0 ∉ s.ended ∧ (final = true → s.on ≠ 0 ∧ co.getD 0 ≠ s.on)
  | .ret => False
  | _ => True

/-- the program over the scheduler: a coroutine is started on a stack that no unfinished coroutine runs on, with a cleanup function -/
inductive Runs : SL → Prop
  | init : Runs {}
  | step {p} (h : Runs p) (o : Sco.Op) (d : Desc) (e : o.enabled p.sco)
      (hd : o = .start ∨ o = .mainStart → d.cleanup = true ∧ ∀ id, 0 < id → id ≤ p.sco.nextId → id ∉ p.sco.done → (p.l.born (p.ptr id)).stack ≠ d.stack) : Runs (stepSL p o d)

end Neco.Llco
