import Verif.Proof.RtQuiet2
import Verif.Spec.Quiet
/-!
# The library comes to rest: the main loop
-/
namespace Neco.Rt
open Neco.Err

/-- bounds the steps the library can still take on its own -/
def restM (s : S) : Nat := match s.sco.cur with
  | some i => 8 * allW s + if (s.co i).pc = .relock ∧ ((s.co i).canceled = true ∨ (s.co i).deadlined = true) then 1 else 0
  | none => match s.main with
    | .ev => 0
    | .done => 0
    | .io => 1
    | .top => if s.sco.npaused > 0 ∨ s.sco.active = false then 2 else 8 * allW s + 5
    | .go => 8 * allW s + 3
    | .rc => 8 * allW s + 4
    | .dl => 8 * topW s + 5
    | .sig => 8 * topW s + 6

theorem allW_congr {s s' : S} (h1 : s'.sco.nextId = s.sco.nextId) (h2 : s'.sco.paused = s.sco.paused) (h3 : s'.all = s.all) (h4 : ∀ j, (s'.co j).pc = (s.co j).pc)
    (h5 : ∀ j, (s'.co j).cleanup = (s.co j).cleanup) : allW s' = allW s := by
  unfold allW; rw [h1]
  exact natSum_congr fun j => by unfold coW; rw [h2, h3, h4, h5]
theorem topW_congr {s s' : S} (h1 : s'.sco.nextId = s.sco.nextId) (h3 : s'.all = s.all) (h4 : ∀ j, (s'.co j).pc = (s.co j).pc)
    (h5 : ∀ j, (s'.co j).cleanup = (s.co j).cleanup) : topW s' = topW s := by
  unfold topW; rw [h1]
  exact natSum_congr fun j => by rw [h3, h4, h5]

theorem restM_same {s s' : S} (h1 : s'.sco = s.sco) (h2 : s'.all = s.all) (h3 : s'.co = s.co) (h4 : s'.main = s.main) : restM s' = restM s := by
  have ha : allW s' = allW s := allW_congr (by rw [h1]) (by rw [h1]) h2 (fun j => by rw [h3]) (fun j => by rw [h3])
  have ht : topW s' = topW s := topW_congr (by rw [h1]) h2 (fun j => by rw [h3]) (fun j => by rw [h3])
  unfold restM; rw [h1, h3, h4, ha, ht]

theorem restM_tau {ok} {s s' : S} (r : Reach ok s) (hok : ok s .tau) (hs : step s .tau = some s') (hf' : s'.fault = false) : restM s' < restM s := by
  have r' := r.step _ hok hs
  cases hc : s.sco.cur with
  | some i =>
    have h := tau_co hc hs
    have hm' : s'.main = .top := (tauCo_main h).trans (reach_top r (by rw [hc]; simp))
    have up : restM s' ≤ 8 * allW s' + 5 := by
      unfold restM; split
      · split <;> omega
      · rw [hm']; dsimp only; split <;> omega
    rcases tau_less r hc hs hf' with h1 | ⟨h1, h2, h3, h4, h5, h6⟩
    · have : 8 * allW s ≤ restM s := by unfold restM; rw [hc]; exact Nat.le_add_right _ _
      omega
    · unfold restM
      rw [h2, hc]; dsimp only
      rw [h1, if_neg (by simp [h3, h4]), if_pos ⟨h5, h6⟩]; omega
  | none =>
    have h : tauMain s = some s' := by
      unfold step at hs; split at hs
      · cases hs
      · simpa only [hc] using hs
    have pcs : ∀ j, (s'.co j).pc = (s.co j).pc := by
      intro j
      cases step_pcs r hs j with
      | same h => exact h
      | new ha => rcases ha with ha | ha <;> cases ha
      | call c ha => cases ha
      | finish ha => cases ha
      | tau ha hc' h => rw [hc] at hc'; cases hc'
      | submit ha => cases ha
    have cln : ∀ j, (s'.co j).cleanup = (s.co j).cleanup := by
      intro j
      have h1 := tauMain_stat (j := j) h
      simp only [stat, Prod.mk.injEq] at h1; exact h1.2.2.2.2.2.1
    have hall : s'.all = s.all := by
      unfold tauMain at h; (repeat' split at h) <;> cases h <;> simp
    have hn : s'.sco.nextId = s.sco.nextId := by
      unfold tauMain at h; (repeat' split at h) <;> cases h <;> simp
    have ht := topW_congr hn hall pcs cln
    have ha := fun hp => allW_congr hn hp hall pcs cln
    have hno : s'.main ≠ .top → s'.sco.cur = none := fun h => Classical.byContradiction fun e => h (reach_top r' e)
    have hle := allW_top s'
    unfold tauMain at h
    unfold restM
    rw [hc]
    split at h
    · rename_i hm; rw [hm]
      split at h
      · rename_i ha0
        cases h
        simp only [note_sco, hc, ha0, or_true, if_true]
        omega
      · rename_i ha0
        split at h
        · rename_i hp
          cases h
          rw [hno (by simp)]; simp [hp]
        · rename_i hp
          cases h
          simp only [hc]
          rw [if_neg (by intro e; rcases e with e | e; exact hp e; exact ha0 e), ha rfl]; omega
    · rename_i hm; rw [hm]; cases h; rw [hno (by simp)]; simp
    · cases h
    · rename_i hm; rw [hm]; cases h; rw [hno (by simp)]; dsimp only; rw [ht]; omega
    · rename_i hm; rw [hm]; cases h; rw [hno (by simp)]; dsimp only
      exact Nat.lt_of_le_of_lt (Nat.add_le_add_right (Nat.mul_le_mul_left 8 (Nat.le_trans hle (Nat.le_of_eq ht))) 4) (by omega)
    · rename_i hm; rw [hm]; cases h; rw [hno (by simp)]; dsimp only; rw [ha rfl]; omega
    · rename_i hm; rw [hm]; cases h
      dsimp only
      split
      · rw [ha (by simp)]; split <;> omega
      · rename_i hc'
        have hw := reach_scoWF r
        have hw' := reach_scoWF r'
        have hy := resume0_yielders hw hc (reach_exitReq (reach_sco r) hc)
        have hr := hw'.main hc'
        rw [if_pos ?_]; · omega
        by_cases hp : s.sco.resume0.npaused > 0
        · exact .inl hp
        · right
          have h1 := hw'.ny; have h2 := hw'.nr
          dsimp only at h1 h2 hr
          rw [hy] at h1; rw [hr] at h2
          unfold Sco.active; rw [h1, h2, hc']; simp; omega
    · cases h

/-- at most so many more steps of the library -/
def restB (s : S) : Nat := if s.fault = true then 0 else 1 + restM s

theorem run_bound {as : List Act} : ∀ {s t : S}, Reach any s → (∀ a ∈ as, ambient a = true) → run s as = some t → as.count .tau ≤ restB s := by
  induction as with
  | nil => intro s t _ _ _; exact Nat.zero_le _
  | cons a as ih =>
    intro s t r ha h
    simp only [run] at h
    split at h
    · rename_i s1 hs
      have hi := ih (r.step a trivial hs) (fun b hb => ha b (.tail _ hb)) h
      have hf := step_nofault hs
      have h0 : restB s = 1 + restM s := by unfold restB; rw [if_neg (by rw [hf]; simp)]
      have same : a ≠ .tau → restM s1 = restM s → (a :: as).count .tau ≤ restB s := by
        intro h1 h2
        have : restB s1 ≤ restB s := by rw [h0]; unfold restB; split <;> omega
        rw [List.count_cons_of_ne h1]; omega
      have hamb := ha a (.head _)
      cases a with
      | tau =>
        rw [List.count_cons_self]
        have : restB s1 < restB s := by
          rw [h0]; unfold restB; split
          · omega
          · rename_i hf1
            have := restM_tau r trivial hs (by simpa using hf1)
            omega
        omega
      | clock x =>
        refine same (by simp) ?_
        unfold step at hs; dsimp only at hs; (repeat' split at hs) <;> cases hs
        exact restM_same rfl rfl rfl rfl
      | signal x =>
        refine same (by simp) ?_
        unfold step at hs; dsimp only at hs; (repeat' split at hs) <;> cases hs <;> exact restM_same rfl rfl rfl rfl
      | wdone x =>
        refine same (by simp) ?_
        unfold step at hs; dsimp only at hs; (repeat' split at hs) <;> cases hs
        exact restM_same (by simp) (by simp) (by simp) (by simp)
      | _ => cases hamb
    · cases h

/-- a state the library cannot leave on its own -/
theorem stop_rest {ok} {s : S} (r : Reach ok s) (h : step s .tau = none) : Rest s := by
  unfold Rest
  by_cases h0 : s.dead = true ∨ s.fault = true ∨ s.main = .done
  · rcases h0 with h0 | h0 | h0
    · exact .inl h0
    · exact .inr (.inl h0)
    · exact .inr (.inr (.inl ((reach_invH r).h2 h0).1))
  have h1 := h
  unfold step at h1
  rw [if_neg h0] at h1
  dsimp only at h1
  split at h1
  · rename_i i hc
    have : (s.co i).pc = .user ∨ (s.co i).pc = .workTry := by
      have hd := cur_not_dead r hc
      unfold tauCo at h1
      (repeat' split at h1) <;> first | (cases h1; done) | (rename_i e; exact .inl e) | (rename_i e; exact .inr e) | (rename_i e; exact absurd e hd)
    rcases this with hp | hp
    · refine .inr (.inr (.inr (.inl ⟨.yield, ?_⟩)))
      unfold step; rw [if_neg h0]; simp only [hc]; rw [if_pos ⟨hp, by simp⟩]; exact ⟨_, rfl⟩
    · refine .inr (.inr (.inr (.inr (.inl ⟨false, ?_⟩))))
      unfold step; rw [if_neg h0]; simp only [hc]; rw [if_pos hp]; exact ⟨_, rfl⟩
  · rename_i hc
    have hm : s.main = .ev := by
      unfold tauMain at h1
      (repeat' split at h1) <;> first | (cases h1; done) | assumption | (rename_i e; exact absurd (.inr (.inr e)) h0)
    refine .inr (.inr (.inr (.inr (.inr ⟨[], ?_⟩))))
    unfold step; rw [if_neg h0]; dsimp only; rw [if_pos ⟨hc, hm, rfl⟩]; exact ⟨_, rfl⟩

theorem tau_reach {ok} (hok : ∀ s, ok s .tau) {n : Nat} : ∀ {s t : S}, Reach ok s → run s (List.replicate n .tau) = some t → Reach ok t := by
  induction n with
  | zero => intro s t r h; cases h; exact r
  | succ n ih =>
    intro s t r h
    simp only [List.replicate_succ, run] at h
    split at h
    · rename_i u hu; exact ih (r.step _ (hok s) hu) h
    · cases h

theorem run_snoc {a : Act} {as : List Act} : ∀ {s : S}, run s (as ++ [a]) = (run s as).bind (fun t => step t a) := by
  induction as with
  | nil => intro s; simp only [List.nil_append, run, Option.bind_some]; cases step s a <;> rfl
  | cons b as ih =>
    intro s
    simp only [List.cons_append, run]
    cases step s b with
    | none => rfl
    | some t => exact ih

/-- going on alone, the library stops -/
theorem tau_stops {s : S} (r : Reach any s) : ∃ n t, run s (List.replicate n .tau) = some t ∧ step t .tau = none := by
  refine Classical.byContradiction fun hno => ?_
  have all : ∀ n, ∃ t, run s (List.replicate n .tau) = some t := by
    intro n
    induction n with
    | zero => exact ⟨s, rfl⟩
    | succ n ih =>
      obtain ⟨t, ht⟩ := ih
      cases hs : step t .tau with
      | none => exact absurd ⟨n, t, ht, hs⟩ hno
      | some u => exact ⟨u, by rw [List.replicate_succ', run_snoc, ht]; exact hs⟩
  obtain ⟨t, ht⟩ := all (restB s + 1)
  have := run_bound r (by intro a ha; rw [List.eq_of_mem_replicate ha]; rfl) ht
  rw [List.count_replicate_self] at this
  omega

end Neco.Rt
