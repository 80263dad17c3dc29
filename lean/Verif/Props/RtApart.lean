import Verif.Proof.RtApart
import Verif.Proof.RtPend
import Verif.Props.RtEx
/-!
# C79: What is done with one object or by one coroutine leaves the others alone
-/
namespace Neco.Rt
open Neco.Err

/-- In every execution, whatever happens leaves every channel, mutex, wait group and condition variable it does not concern as it
is, and those who wait at it, in their order.  What happens concerns an object only if the running coroutine makes or is in a call
that names it, makes it, or is a generator ending whose channel it is, or the background work ends of a coroutine in such a call. -/
theorem C79_objects {s s' : S} {a : Act} {t : Thing} (r : Reach any s) (hs : step s a = some s') (hn : ¬ Concerns s t a) : t.same s s' :=
  step_same r hs hn

/-- So for any length of time in which nothing concerns it, an object stays as it is. -/
theorem C79_stretch {s s' : S} {as : List Act} {t : Thing} (r : Reach any s) (hs : run s as = some s') (hn : Spares t s as) : t.same s s' := by
  induction as generalizing s with
  | nil => cases hs; exact ⟨by cases t <;> first | rfl | trivial, rfl⟩
  | cons a as ih =>
    unfold run at hs
    split at hs
    · rename_i u hu
      obtain ⟨h1, h2⟩ := C79_objects r hu hn.1
      obtain ⟨h3, h4⟩ := ih (.step r a trivial hu) hs (hn.2 u hu)
      refine ⟨?_, h4.trans h2⟩
      cases t <;> first | exact h3.trans h1 | trivial
    · cases hs

/-- What a coroutine has set for itself (cancelation type and state, cleanup handlers, watched signals) and what it was told about
its relatives changes only while it runs. -/
theorem C79_settings {s s' : S} {a : Act} {j : Nat} (r : Reach any s) (hs : step s a = some s') (hj : j ∈ starts s.log) (hc : s.sco.cur ≠ some j) :
    (s'.co j).own = (s.co j).own :=
  (step_other (reach_invL r) (reach_invC r) hs hc (fun _ e => by have := ((mem_starts r).mp hj).2; omega) (((reach_invF r).cf j).evU)).own

/-- The data buffer of a coroutine that does not run is written only while it waits in a receive, and only by what concerns the
channel it receives from. -/
theorem C79_buffer {s s' : S} {a : Act} {j : Nat} (r : Reach any s) (hs : step s a = some s') (hj : j ∈ starts s.log) (hc : s.sco.cur ≠ some j)
    (hb : (s'.co j).rdat ≠ (s.co j).rdat) : ∃ c dl, pending j s.log = some (.recv c dl) ∧ Concerns s (.chan c) a := by
  have hm := step_other (reach_invL r) (reach_invC r) hs hc (fun _ e => by have := ((mem_starts r).mp hj).2; omega) (((reach_invF r).cf j).evU)
  obtain ⟨c, dl, h1, h2, h3⟩ := hm.buf hb
  refine ⟨c, dl, ?_, Classical.byContradiction fun hn => ?_⟩
  · exact (pending_call r).mpr ⟨h1, by simp⟩
  · have e : s'.lists (.chanQ c) = s.lists (.chanQ c) := (C79_objects r hs hn).2
    exact h3 (by rw [e]; exact h2)

/-- the cases are real: coroutine 1 holds mutex 0, coroutine 2 waits for it, and coroutine 1 tries another mutex -/
example : ∃ s s', Reach any s ∧ step s (.call (.trylock 1)) = some s' ∧ ¬ Concerns s (.mu 0) (.call (.trylock 1)) ∧ Spares (.mu 0) s [.call (.trylock 1)] ∧ s.lists (.muQ 0) = [.co 2] ∧
    (s.mu 0).locked = true ∧ 2 ∈ starts s.log ∧ s.sco.cur ≠ some 2 ∧ (s'.mu 1).locked = true := by
  obtain ⟨s, r, h⟩ := scriptA [.on 1 (.call (.lock 0 MAX)), .on 1 (.call .start), .on 2 (.call (.lock 0 MAX))]
    (p := fun s => turn 1 s && decide (s.lists (.muQ 0) = [.co 2]) && (s.mu 0).locked && decide (2 ∈ starts s.log) && (step s (.call (.trylock 1))).any (fun s' => (s'.mu 1).locked)) (by decide +kernel)
  simp only [Bool.and_eq_true, decide_eq_true_eq, turn, beq_iff_eq, Option.any_eq_true] at h
  obtain ⟨⟨⟨⟨⟨h1, h2⟩, h3⟩, h4⟩, h5⟩, s', h6, h7⟩ := h
  exact ⟨s, s', r, h6, by simp [Concerns, Call.things], by simp [Spares, Concerns, Call.things], h3, h4, h5, by simp [h1], h7⟩

/-- and a buffer does get written by others: coroutine 2 waits for a message, coroutine 1 sends one -/
example : ∃ s s', Reach any s ∧ step s (.call (.send 0 7 MAX)) = some s' ∧ 2 ∈ starts s.log ∧ s.sco.cur ≠ some 2 ∧ (s'.co 2).rdat ≠ (s.co 2).rdat := by
  obtain ⟨s, r, h⟩ := scriptA [.on 1 (.call (.chMake 0)), .on 1 (.call .start), .on 2 (.call (.recv 0 MAX))]
    (p := fun s => turn 1 s && decide (2 ∈ starts s.log) && (step s (.call (.send 0 7 MAX))).any (fun s' => decide ((s'.co 2).rdat ≠ (s.co 2).rdat))) (by decide +kernel)
  simp only [Bool.and_eq_true, decide_eq_true_eq, turn, beq_iff_eq, Option.any_eq_true] at h
  obtain ⟨⟨⟨h1, h2⟩, h5⟩, s', h6, h7⟩ := h
  exact ⟨s, s', r, h6, h5, by simp [h1], h7⟩

end Neco.Rt
