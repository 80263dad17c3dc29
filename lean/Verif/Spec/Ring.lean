import Verif.Model.Ring

/-! # What the buffer of a channel should do: a queue of at most `cap` messages, and the message of the last select -/

namespace Neco.Ring

/-- the messages in the queue, oldest first, and the message of the last select -/
structure Q where
  cap : Nat
  items : List (List UInt8) := []
  case : Option (List UInt8) := none

/-- what an operation should do, and give: `none` is nothing; the message of the last select is anything if there was none -/
inductive Does : Q → Act → Option (List UInt8) → Q → Prop
  | push {q m} : q.items.length < q.cap → Does q (.push m) none { q with items := q.items ++ [m] }
  | pop {q m l} : q.items = m :: l → Does q .pop (some m) { q with items := l }
  | setCase {q m} : Does q (.setCase m) none { q with case := some m }
  | popCase {q m l} : q.items = m :: l → Does q .popCase none { q with items := l, case := some m }
  | getCase {q m} : (∀ c, q.case = some c → m = c) → Does q .getCase (some m) q

/-- what operations should do and give -/
inductive DoesAll : Q → List Act → List (Option (List UInt8)) → Q → Prop
  | nil {q} : DoesAll q [] [] q
  | cons {q q1 q2 a o as os} : Does q a o q1 → DoesAll q1 as os q2 → DoesAll q (a :: as) (o :: os) q2

end Neco.Ring
