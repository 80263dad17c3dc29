import Verif.Model.Pipe

/-! # Specification: pipes -/

namespace Neco.Pipe

/-- descriptors `a` and `b` are open and non-blocking; they are the two ends of one connection, in which nothing is waiting to be read -/
def Ends (s : S) (a b : Int) : Prop := 0 ≤ a ∧ 0 ≤ b ∧ a ≠ b ∧ ∃ c, s.fds a.toNat = some ⟨.near c, true⟩ ∧ s.fds b.toNat = some ⟨.far c, true⟩ ∧ (s.conns c).data = []

/-- no other process knows the secret: no foreign connection has sent it first -/
def Unguessed (s : S) : Prop := ∀ c, c < s.next → (s.conns c).foreign = true → (s.conns c).sent.take 8 ≠ s.secret

/-- the child has ended in time (or was never started): before the call returned -/
def InTime (s : S) : Prop := s.fault = false ∧ (s.ch = .none ∨ s.ch = .ended)

end Neco.Pipe
