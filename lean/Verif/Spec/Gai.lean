import Verif.Model.Gai

/-! # Specification: calls of neco_getaddrinfo -/

namespace Neco.Gai

/-- the coroutine is through with the call -/
def Over (c : Call) : Prop := (∃ r, c.co = .done r) ∨ c.co = .exited
/-- there is no thread for the call, or it is through -/
def Through (c : Call) : Prop := c.th = .none ∨ c.th = .done
/-- the thread is there, and has not yet counted itself off -/
def Running (c : Call) : Bool := decide (c.th ≠ .none ∧ c.th ≠ .done)

end Neco.Gai
