import Verif.Model.Args

/-! # Specification: arguments of coroutines -/

namespace Neco.Args

/-- the value of `argv[i]`, as the function of the coroutine with control block `a` reads it; `none` if that is not memory it may read -/
def readArg (s : S) (a i : Nat) : Option Int := match s.heap a with
  | some (.co c) => match c.argv with
    | .null => none
    | .inl => (c.aargv[i]?).join
    | .heap p => match s.heap p with
      | some (.args l) => (l[i]?).join
      | _ => none
  | _ => none

/-- `argc`, as the function of the coroutine with control block `a` gets it -/
def readArgc (s : S) (a : Nat) : Option Nat := match s.heap a with
  | some (.co c) => some c.argc
  | _ => none

/-- what happened from one state to another -/
inductive Run : S → List Act → S → Prop
  | nil (s : S) : Run s [] s
  | cons {s t u : S} {l : List Act} (x : Act) (hs : step s x = some t) (r : Run t l u) : Run s (x :: l) u

/-- is block `b` something that a coroutine with control block `a` has: the block itself, its stack, its arguments, its generator? -/
def has (s : S) (a b : Nat) : Prop := b = a ∨ match s.heap a with
  | some (.co c) => c.stack = b ∨ c.argv = .heap b ∨ c.gen = some b
  | _ => False

end Neco.Args
