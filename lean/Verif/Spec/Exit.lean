import Verif.Model.Exit
/-! # What is said about the end of a coroutine -/
namespace Neco.Exit

/-- Handler `h` is no longer established: the code that pushed it popped it, or the end of the coroutine
took it off. -/
def Taken (h : Nat) (l : List Ev) : Prop := (∃ f e, Ev.popped f h e ∈ l) ∨ Ev.unwound h ∈ l

/-- The event is handler `h` coming off. -/
def Takes (h : Nat) (x : Ev) : Prop := (∃ f e, x = .popped f h e) ∨ x = .unwound h

/-- Handler `h` was established with a routine. -/
def Established (h : Nat) (l : List Ev) : Prop := ∃ f, Ev.pushed f h true ∈ l

end Neco.Exit
