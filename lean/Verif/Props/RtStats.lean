import Verif.Proof.RtStats
import Verif.Props.RtCancel
/-!
# Statistics (C33)
-/
namespace Neco.Rt
open Neco.Err

/-! ## C33 statistics are exact -/

/-- each counter is the number of coroutines that are in a blocking call of that kind and have not run since they blocked in it -/
theorem C33_waiting {ok} {s : S} (r : Reach ok s) (hf : s.fault = false) (k : Wk) : statOf s k = waiting s k := stat_waiting r hf k

/-- every blocked coroutine is counted, under the kind of the call it is in -/
theorem C33_blocked {ok} {s : S} (r : Reach ok s) {i : Nat} (hb : Blocked s i) : inWait s i = true ∧ 1 ≤ i ∧ i ≤ s.sco.nextId := by
  have hF := (reach_invF r).cf i
  refine ⟨?_, ?_⟩
  · unfold inWait
    rcases hF.sp hb with ⟨h, _⟩ | h
    · cases hp : (s.co i).pc <;> rw [hp] at h <;> first | rfl | cases h
    · rw [h]
  · have := (reach_scoWF r).perm.mem_iff.1 (show i ∈ s.sco.everybody by unfold Sco.everybody; simp [show i ∈ s.sco.paused from hb])
    rw [List.mem_range'_1] at this; omega

/-- what `neco_getstats` reports to the caller -/
theorem C33_answer {ok} {s s' : S} (r : Reach ok s) {i : Nat} (hc : s.sco.cur = some i) (hs : step s (.call .stats) = some s') :
    ∃ st, s'.log = .stats i st :: .call i .stats :: s.log ∧ st.sleepers = waiting s .sleep ∧ st.evwaiters = waiting s .ev ∧ st.sigwaiters = waiting s .sig ∧ st.senders = waiting s .send ∧
      st.receivers = waiting s .recv ∧ st.locked = waiting s .lock ∧ st.waitgroupers = waiting s .wg ∧ st.condwaiters = waiting s .cond ∧ st.suspended = waiting s .susp ∧
      st.coroutines = (starts s.log).length - (exits s.log).length := by
  have hf := step_nofault hs
  obtain ⟨hu, _, rfl⟩ := step_call_of hs hc
  refine ⟨getStats s, rfl, ?_⟩
  exact ⟨C33_waiting r hf .sleep, C33_waiting r hf .ev, C33_waiting r hf .sig, C33_waiting r hf .send, C33_waiting r hf .recv, C33_waiting r hf .lock, C33_waiting r hf .wg, C33_waiting r hf .cond,
    C33_waiting r hf .susp, allCount_eq r⟩

/-- the number of coroutines is that of the live ones.  (Partial: provided no coroutine was terminated by a cancelation while it was already ending, see `C33_live_not_general`.) -/
theorem C33_live_partial {ok} {s : S} (r : Reach ok s) (hf : s.fault = false) (he : EndsOnce s.log) : (getStats s).coroutines = (live s.log).length := allCount_live r hf he

/-! ## The theorems are not about nothing -/

/-- 2 sleeps, 3 locks a mutex that 1 holds, 4 receives, 5 waits for a condition and 6 has exited -/
def stSome : List Sc := [.on 1 (.call (.lock 0 MAX)), .on 1 (.call (.chMake 0)), .on 1 (.call .start), .on 2 (.call (.sleep MAX)), .on 1 (.call .start), .on 3 (.call (.lock 0 MAX)), .on 1 (.call .start),
  .on 4 (.call (.recv 0 MAX)), .on 1 (.call .start), .on 5 (.call (.lock 1 MAX)), .on 5 (.call (.cvWait 0 1 MAX)), .on 1 (.call .start), .on 6 (.call .exit), .til (turn 1)]
example : ∃ s, Reach Clean s ∧ s.fault = false ∧ waiting s .sleep = 1 ∧ waiting s .lock = 1 ∧ waiting s .recv = 1 ∧ waiting s .cond = 1 ∧ waiting s .send = 0 ∧ s.sco.cur = some 1 ∧ live s.log = [5, 4, 3, 2, 1] := by
  obtain ⟨s, r, h⟩ := scriptC stSome (p := fun s => decide (s.fault = false ∧ waiting s .sleep = 1 ∧ waiting s .lock = 1 ∧ waiting s .recv = 1 ∧ waiting s .cond = 1 ∧ waiting s .send = 0 ∧ s.sco.cur = some 1 ∧ live s.log = [5, 4, 3, 2, 1])) (by decide +kernel)
  have h := of_decide_eq_true h
  exact ⟨s, r, h⟩
/-- `EndsOnce` as a test -/
def endsOnceB : List Ev → Bool
  | [] => true
  | .kill i _ :: l => !(l.contains (.exit i)) && endsOnceB l
  | _ :: l => endsOnceB l
theorem endsOnceB_once {l : List Ev} (h : endsOnceB l = true) : EndsOnce l := by
  induction l with
  | nil => trivial
  | cons e l ih =>
    cases e <;> simp only [endsOnceB, EndsOnce] at h ⊢ <;> try exact ih h
    simp at h; exact ⟨h.1, ih h.2⟩
example : ∃ s, Reach Clean s ∧ s.fault = false ∧ EndsOnce s.log ∧ (getStats s).coroutines = 1 ∧ .kill 2 false ∈ s.log ∧ .exit 2 ∈ s.log := by
  obtain ⟨s, r, h⟩ := scriptC [.on 1 (.call .start), .on 2 (.call (.setType true)), .on 2 (.call (.sleep MAX)), .on 1 (.call (.cancel 2 MAX)), .on 1 (.call .yield), .til (fun s => decide (.exit 2 ∈ s.log))]
    (p := fun s => decide (s.fault = false ∧ endsOnceB s.log = true ∧ (getStats s).coroutines = 1 ∧ .kill 2 false ∈ s.log ∧ .exit 2 ∈ s.log)) (by decide +kernel)
  obtain ⟨h1, h2, h3⟩ := of_decide_eq_true h
  exact ⟨s, r, h1, endsOnceB_once h2, h3⟩

/-- **False of the code** in general: 2 is terminated a second time while it is ending, and is subtracted twice: of the two live coroutines only one is reported -/
theorem C33_live_not_general : ¬ ∀ (s : S), Reach Clean s → s.fault = false → (getStats s).coroutines = (live s.log).length := by
  intro h
  obtain ⟨s, r, hp⟩ := scriptC [.on 1 (.call .start), .on 2 (.call (.setType true)), .on 2 (.call .yield), .on 1 (.call .start), .on 3 (.call (.join 2 MAX)), .on 1 (.call (.cancel 2 MAX)), .til (fun s => decide (2 ≤ s.log.countP (kills 2))), .til (turn 1)]
    (p := fun s => decide (s.fault = false ∧ (getStats s).coroutines = 1 ∧ live s.log = [3, 1])) (by decide +kernel)
  obtain ⟨h1, h2, h3⟩ := of_decide_eq_true hp
  have := h s r h1
  rw [h2, h3] at this; cases this

end Neco.Rt
