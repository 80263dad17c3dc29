import Verif.Proof.RtQuiet3
import Verif.Props.RtLegal
import Verif.Spec.Quiet
/-!
# C74: the library always comes to rest
-/
namespace Neco.Rt
open Neco.Err

/-- **C74**: however time passes, signals arrive and background work finishes meanwhile, the library takes only so many
steps before the code of a coroutine runs again, work is offered to the background threads or the system is asked for events -/
theorem C74_bounded {s : S} (r : Reach any s) :
    ∃ N, ∀ as t, (∀ a ∈ as, ambient a = true) → run s as = some t → as.count .tau ≤ N :=
  ⟨_, fun _ _ ha h => run_bound r ha h⟩

/-- **C74**: a state in which the library cannot go on is one in which somebody else has to act -/
theorem C74_turn {s : S} (r : Reach any s) (h : step s .tau = none) : Rest s := stop_rest r h

/-- **C74**: so from every state it comes to rest -/
theorem C74_rest {s : S} (r : Reach any s) : ∃ n t, run s (List.replicate n .tau) = some t ∧ step t .tau = none ∧ Rest t := by
  obtain ⟨n, t, h1, h2⟩ := tau_stops r
  exact ⟨n, t, h1, h2, stop_rest (tau_reach (fun _ => trivial) r h1) h2⟩

theorem Reach.weaken {ok} {s : S} (r : Reach ok s) : Reach any s := by
  induction r with
  | init a e => exact .init a e
  | step _ a _ hs ih => exact ih.step a trivial hs

/-- **C74**: with a program that keeps the rules nothing undefined happens on the way -/
theorem C74_legal {s : S} (r : Reach Legal s) :
    ∃ n t, run s (List.replicate n .tau) = some t ∧ t.fault = false ∧
      (t.dead = true ∨ .halt ∈ t.log ∨ (∃ c u, step t (.call c) = some u) ∨ (∃ b u, step t (.submit b) = some u) ∨ (∃ evs u, step t (.events evs) = some u)) := by
  obtain ⟨n, t, h1, h2⟩ := tau_stops r.weaken
  have rt : Reach Legal t := tau_reach (fun s i _ => ⟨fun c h => (by cases h), fun h => (by cases h)⟩) r h1
  have hf := (reach_legal rt).1
  refine ⟨n, t, h1, hf, ?_⟩
  rcases stop_rest rt h2 with h | h | h
  · exact .inl h
  · rw [hf] at h; cases h
  · exact .inr h

/-- `n` steps of the library lead from here to where it rests and `a` is possible -/
def restsB (n : Nat) (a : Act) (s : S) : Bool := (run s (List.replicate n .tau)).any (fun t => (step t .tau).isNone && (step t a).isSome)
theorem restsB_iff {n : Nat} {a : Act} {s : S} (h : restsB n a s = true) : ∃ t, run s (List.replicate n .tau) = some t ∧ step t .tau = none ∧ ∃ u, step t a = some u := by
  unfold restsB at h
  cases hr : run s (List.replicate n .tau) with
  | none => rw [hr] at h; cases h
  | some t =>
    rw [hr] at h
    simp only [Option.any_some, Bool.and_eq_true, Option.isNone_iff_eq_none] at h
    exact ⟨t, rfl, h.1, Option.isSome_iff_exists.mp h.2⟩

/-- coroutine 1 cancels coroutine 2, which runs its two handlers and ends; 15 steps later coroutine 1 goes on -/
example : ∃ s, Reach any s ∧ ∃ t, run s (List.replicate 15 .tau) = some t ∧ step t .tau = none ∧ ∃ u, step t (.call .yield) = some u := by
  obtain ⟨s, r, h⟩ := scriptA [.on 1 (.call .start), .on 2 (.call (.setType true)), .on 2 (.call (.cpush 7)), .on 2 (.call (.cpush 8)), .on 2 (.call (.suspend MAX)), .on 1 (.call (.cancel 2 MAX))]
    (p := restsB 15 (.call .yield)) (by decide +kernel)
  exact ⟨s, r, restsB_iff h⟩
/-- everybody waits: the system is asked for events -/
example : ∃ s, Reach any s ∧ ∃ t, run s (List.replicate 2 .tau) = some t ∧ step t .tau = none ∧ ∃ u, step t (.events []) = some u := by
  obtain ⟨s, r, h⟩ := scriptA [.on 1 (.call (.chMake 0)), .on 1 (.call .start), .on 2 (.call (.recv 0 MAX)), .on 1 (.call (.recv 0 MAX))]
    (p := restsB 2 (.events [])) (by decide +kernel)
  exact ⟨s, r, restsB_iff h⟩
/-- work for the background threads -/
example : ∃ s, Reach any s ∧ ∃ t, run s (List.replicate 0 .tau) = some t ∧ step t .tau = none ∧ ∃ u, step t (.submit true) = some u := by
  obtain ⟨s, r, h⟩ := scriptA [.on 1 (.call .work)] (p := restsB 0 (.submit true)) (by decide +kernel)
  exact ⟨s, r, restsB_iff h⟩
/-- the only coroutine ends: the run is over -/
example : ∃ s, Reach any s ∧ ∃ t, run s (List.replicate 4 .tau) = some t ∧ step t .tau = none ∧ .halt ∈ t.log := by
  obtain ⟨s, r, h⟩ := scriptA [.on 1 .finish]
    (p := fun s => (run s (List.replicate 4 .tau)).any (fun t => (step t .tau).isNone && decide (.halt ∈ t.log))) (by decide +kernel)
  cases hr : run s (List.replicate 4 .tau) with
  | none => rw [hr] at h; cases h
  | some t =>
    rw [hr] at h
    simp only [Option.any_some, Bool.and_eq_true, Option.isNone_iff_eq_none, decide_eq_true_eq] at h
    exact ⟨s, r, t, hr, h.1, h.2⟩
/-- time passes and a signal arrives meanwhile -/
example : ∃ s as t, Reach any s ∧ (∀ a ∈ as, ambient a = true) ∧ run s as = some t ∧ as.count .tau = 6 ∧ as.length = 9 := by
  obtain ⟨s, r, h⟩ := scriptA [.on 1 (.call .start), .on 2 (.call (.setType true)), .on 2 (.call (.cpush 7)), .on 2 (.call (.cpush 8)), .on 2 (.call (.suspend MAX)), .on 1 (.call (.cancel 2 MAX))]
    (p := fun s => (run s [.tau, .tau, .clock 5, .tau, .signal 13, .tau, .clock 9, .tau, .tau]).isSome) (by decide +kernel)
  obtain ⟨t, ht⟩ := Option.isSome_iff_exists.mp h
  exact ⟨s, _, t, r, by decide, ht, by decide, rfl⟩

end Neco.Rt
