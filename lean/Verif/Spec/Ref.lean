import Verif.Model.Ref

/-! # Specification: references to channels -/

namespace Neco.Ref

/-- no channel has more than 2147483648 references at a time -/
def Few (s : S) : Act → Prop
  | .retain b => (s.chans b).refs < 2 ^ 31
  | _ => True

/-- anything -/
def any (_ : S) (_ : Act) : Prop := True

end Neco.Ref
