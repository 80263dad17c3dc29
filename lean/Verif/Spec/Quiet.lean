import Verif.Model.Rt
/-!
# Specification: the library at rest
-/
namespace Neco.Rt

/-- what can go on without the program and without an answer of the system: steps of the library, the clock, signals that
arrive, and background work that finishes -/
def ambient : Act → Bool
  | .tau | .clock _ | .signal _ | .wdone _ => true
  | _ => false

/-- somebody else has to act: the process was killed, something undefined happened, the run is over, the code of a
coroutine is running, the background threads are asked to take work, or the system is asked for events -/
def Rest (s : S) : Prop :=
  s.dead = true ∨ s.fault = true ∨ .halt ∈ s.log ∨ (∃ c t, step s (.call c) = some t) ∨ (∃ b t, step s (.submit b) = some t) ∨
  (∃ evs t, step s (.events evs) = some t)

end Neco.Rt
