import Verif.Model.Sigq
/-!
# Specification: no signal is lost between its handler and the main loop
-/
namespace Neco.Sigq

/-- no handler runs and the main loop is not in the middle of taking out a signal -/
def AtRest (s : S) : Prop := s.frames = [] ∧ s.main = .idle

/-- the main loop would look at the queues: the mask is not zero -/
def Looks (s : S) : Prop := ∃ n, n < 32 ∧ s.mask n = true

/-- signal `n` does not arrive between the read and the write with which the main loop takes one off its queue -/
def CalmQ (n : Nat) (s : S) (a : Act) : Prop := a = .sig n → ∀ v, s.main ≠ .stQ n v

/-- no signal arrives while the main loop clears the bit of a signal whose queue it has found empty, or between the read and the write
with which a handler sets its bit -/
def CalmM (s : S) (a : Act) : Prop := ∀ n, a = .sig n → (∀ k, s.main ≠ .ldMask k) ∧ (∀ k w, s.main ≠ .stMask k w) ∧ ∀ f ∈ s.frames, ∀ w, f.pc ≠ .stMask w

end Neco.Sigq
