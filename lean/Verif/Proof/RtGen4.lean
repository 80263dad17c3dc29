import Verif.Proof.RtGen3
import Verif.Proof.RtFrom
import Verif.Proof.RtMsg5
/-!
# Facts about generators used in the property theorems
-/
namespace Neco.Rt
open Neco.Err

theorem chanSend_fault {s : S} {i c : Nat} {m : Msg} {dl : Int} {ch : Chan} (h : s.chan c = some ch) : (chanSend s i c m dl).fault = s.fault := by
  unfold chanSend; rw [h]; dsimp only
  split
  · rfl
  split
  · rfl
  split
  · unfold sendTry; split <;> simp
  · unfold sendTry sendRest; (repeat' split) <;> simp

/-- `neco_gen_yield` of a generator does not return `NECO_NOTGENERATOR` -/
theorem genYield_send {ok} {s : S} (r : Reach ok s) {i c : Nat} {m : Msg} {dl v : Int} {d : Msg} {b : List Ev}
    (h : Returns s i (.genYield m dl) v d) (hb : s.log = since i s.log ++ .call i (.genYield m dl) :: b) (hx : genOf i b = some c) : v ≠ NOTGENERATOR := by
  intro hv
  rcases returns_out r h with ⟨s0, s1, es, r0, _, hc, hs, ho, hl, hn⟩ | ⟨s0, s1, es, r0, hc, hs, hcl, ho, ho', _⟩
  · obtain ⟨fs, h1, h2, h3⟩ := since_step hs hc hl hn
    have e := (call_unique hb h3).2
    subst e
    have hf := step_nofault hs
    obtain ⟨hu, _, e⟩ := step_call_of hs hc
    have hg : (s0.co i).gen = some c := by
      rcases (reach_invE r0).co i with h | ⟨_, h⟩
      · rw [h, hx]
      · have := reach_gone r0 h; rw [hu] at this; cases this
    have hg' : ((callSt s0 i (.genYield m dl)).co i).gen = some c := by rw [callSt_field Co.gen (by intros; rfl), hg]
    have e2 : s1 = chanSend (callSt s0 i (.genYield m dl)) i c m dl := by rw [e]; simp only [doCall, doGenYield, hg']
    have hff : s1.fault = false := by
      cases hch : s0.chan c with
      | none =>
        exfalso
        have hch' : (callSt s0 i (.genYield m dl)).chan c = none := hch
        rw [e2] at ho
        simp only [chanSend, hch'] at ho
        rw [callSt_field Co.pc (by intros; rfl), hu] at ho; cases ho
      | some ch => rw [e2, chanSend_fault (s := callSt s0 i (.genYield m dl)) (ch := ch) hch]; exact hf
    rw [e2] at ho hff
    rcases chanSend_pc _ _ _ _ _ hff with h | ⟨w, h, hw⟩
    · rw [h] at ho; cases ho
    · rw [h] at ho; cases ho
      rw [hv] at hw; revert hw; decide
  · cases late_by r0 hc hs ho' ho with
    | work h hc => rw [hcl] at hc; cases hc
    | blk bb dl' hpc hbc =>
      rw [hcl] at hbc
      have : bb = .send := by
        cases bb <;> simp [BlkC] at hbc <;> first | rfl | (rename_i x; cases x <;> simp [BlkC] at hbc)
      subst this
      have hg := step_guard hs
      unfold step at hs; rw [if_neg hg] at hs; simp only [hc] at hs
      unfold tauCo at hs; rw [hpc] at hs; simp only at hs; cases hs
      simp only [afterBlk, pc_retv] at ho'
      have ht := timed_dlCode { preBlk (unpause s0 i) i .send with nsenders := (preBlk (unpause s0 i) i .send).nsenders - 1 } i MAX
      have ho' := Option.some.inj ho'
      rw [ho', hv] at ht
      rcases ht with h | h | h <;> revert h <;> decide
    | cancel t dl h hc => rw [hcl] at hc; cases hc
    | relock q m dl h hc => rw [hcl] at hc; cases hc

theorem sent_sub {c : Nat} {l : List Ev} {e : Nat × Msg} (h : e ∈ sent c l) : .put c e.1 e.2 ∈ l := by
  induction l with
  | nil => cases h
  | cons x l ih =>
    cases x <;> first | exact List.mem_cons_of_mem _ (ih h) | skip
    · simp only [sent] at h
      split at h
      · rename_i hk; subst hk
        rcases List.mem_append.mp h with h | h
        · exact List.mem_cons_of_mem _ (ih h)
        · simp at h; subst h; exact List.mem_cons_self
      · exact List.mem_cons_of_mem _ (ih h)
    · simp only [sent] at h
      split at h
      · unfold unsend at h
        exact List.mem_cons_of_mem _ (ih (List.mem_reverse.mp (List.eraseP_subset (List.mem_reverse.mp h))))
      · exact List.mem_cons_of_mem _ (ih h)

theorem genOf_starts {i c : Nat} {l : List Ev} (h : genOf i l = some c) : i ∈ starts l := by
  induction l with
  | nil => cases h
  | cons e l ih =>
    cases e
    case start p k =>
      by_cases hk : k = i
      · simp [starts, hk]
      · simp only [genOf, hk, if_false] at h
        simp [starts, ih h]
    all_goals exact ih h

theorem genOf_append {i : Nat} {a b : List Ev} (h : i ∉ starts a) : genOf i (a ++ b) = genOf i b := by
  induction a with
  | nil => rfl
  | cons e a ih =>
    cases e
    case start p k =>
      simp only [starts, List.mem_cons, not_or] at h
      simp only [List.cons_append, genOf, if_neg (Ne.symm h.1)]
      exact ih h.2
    all_goals exact ih h

theorem reach_toAny {ok} {s : S} (r : Reach ok s) : Reach any s := by
  induction r with
  | init x y => exact .init x y
  | step r a hok hs ih => exact .step ih a trivial hs

/-- the channel of a generator does not change -/
theorem genOf_keep {ok} {s : S} (r : Reach ok s) {a b : List Ev} {e : Ev} {i c : Nat} (hl : s.log = a ++ e :: b) (h : genOf i b = some c) : genOf i s.log = some c := by
  have hn : (starts s.log).Nodup := by
    rw [← starts_filter]
    have := (reach_invA (reach_toAny r)).st
    unfold rl at this; rw [this]
    exact List.pairwise_reverse.mpr ((List.pairwise_lt_range' ..).imp (fun h => Nat.ne_of_gt h))
  have e1 : s.log = (a ++ [e]) ++ b := by simp [hl]
  rw [e1, starts_append, List.nodup_append] at hn
  rw [e1, genOf_append (fun h' => hn.2.2 i h' i (genOf_starts h) rfl)]
  exact h

end Neco.Rt
