import Verif.Proof.RtQuiet
/-!
# The library comes to rest: the sum of all weights
-/
namespace Neco.Rt
open Neco.Err

/-- `f 0 + … + f (n-1)` -/
def natSum (n : Nat) (f : Nat → Nat) : Nat := match n with
  | 0 => 0
  | n + 1 => natSum n f + f n

theorem natSum_le {n : Nat} {f g : Nat → Nat} (h : ∀ j, f j ≤ g j) : natSum n f ≤ natSum n g := by
  induction n with
  | zero => exact Nat.le_refl _
  | succ n ih => have := h n; simp only [natSum]; omega
theorem natSum_congr {n : Nat} {f g : Nat → Nat} (h : ∀ j, f j = g j) : natSum n f = natSum n g :=
  Nat.le_antisymm (natSum_le fun j => Nat.le_of_eq (h j)) (natSum_le fun j => Nat.le_of_eq (h j).symm)
theorem natSum_at (n i d : Nat) (f : Nat → Nat) : natSum n (fun j => f j + if j = i then d else 0) = natSum n f + if i < n then d else 0 := by
  induction n with
  | zero => simp [natSum]
  | succ n ih =>
    simp only [natSum, ih]
    by_cases h1 : n = i
    · subst h1; simp; omega
    · have : (i < n + 1) ↔ i < n := by omega
      simp only [if_neg h1, this]; split <;> omega

/-- the weight of all coroutines -/
def allW (s : S) : Nat := natSum (s.sco.nextId + 1) (coW s)
/-- the most it can be with everybody where they are -/
def topW (s : S) : Nat := natSum (s.sco.nextId + 1) (fun j => pcW false (decide (j ∈ s.all)) (s.co j).pc + (s.co j).cleanup.length)

theorem allW_top (s : S) : allW s ≤ topW s := natSum_le fun j => Nat.add_le_add_right (pcW_z _ _ _ _ (by simp)) _

theorem tauCo_nextId {s s' : S} {i : Nat} (h : tauCo s i = some s') : s'.sco.nextId = s.sco.nextId := by
  unfold tauCo at h
  (repeat' split at h) <;> first | (cases h; done) | (cases h; rfl) | (cases h; simp; done)

theorem tauCo_alls {s s' : S} {i j : Nat} (h : tauCo s i = some s') (hj : j ≠ i) : j ∈ s'.all ↔ j ∈ s.all := by
  unfold tauCo at h
  split at h
  case h_13 =>
    cases h
    unfold doExit; (repeat' split) <;> first | rfl | (rw [exitNotify_all]; simp [hj])
  case h_9 b _ => cases h; cases b <;> simp only [afterBlk] <;> (repeat' split) <;> simp
  case h_7 a _ => cases h; cases a <;> simp only [doAft] <;> (repeat' split) <;> simp [yfsr, coyield, doFin, cvEnq]
  case h_4 => cases h; unfold doRet; split <;> simp
  all_goals ((repeat' split at h) <;> first | (cases h; done) | (cases h; rfl) | (cases h; simp; done))

theorem tau_co {s s' : S} {i : Nat} (hc : s.sco.cur = some i) (hs : step s .tau = some s') : tauCo s i = some s' := by
  unfold step at hs
  split at hs
  · cases hs
  · simpa only [hc] using hs

/-- a step of the library inside a coroutine lowers the sum, or is the one that throws away what is left of a
cancelation in a condition-variable wait that locks again -/
theorem tau_less {ok} {s s' : S} {i : Nat} (r : Reach ok s) (hc : s.sco.cur = some i) (hs : step s .tau = some s') (hf' : s'.fault = false) :
    allW s' < allW s ∨
    (allW s' = allW s ∧ s'.sco = s.sco ∧ (s'.co i).canceled = false ∧ (s'.co i).deadlined = false ∧ (s.co i).pc = .relock ∧
      ((s.co i).canceled = true ∨ (s.co i).deadlined = true)) := by
  have h := tau_co hc hs
  have hf : s.fault = false := by
    unfold step at hs; split at hs
    · cases hs
    · rename_i h; simp at h; exact h.2.1
  have hi := cur_le (reach_scoWF r) hc
  have hn := tauCo_nextId h
  have pcs : ∀ j, j ≠ i → (s'.co j).pc = (s.co j).pc := by
    intro j hj
    cases step_pcs r hs j with
    | same h => exact h
    | new ha => rcases ha with ha | ha <;> cases ha
    | call c ha => cases ha
    | finish ha => cases ha
    | tau ha hc' h => rw [hc] at hc'; cases hc'; exact absurd rfl hj
    | submit ha => cases ha
  have cln : ∀ j, j ≠ i → (s'.co j).cleanup = (s.co j).cleanup := by
    intro j hj
    rcases tauCo_stat (j := j) h with h1 | ⟨h1, _⟩
    · simp only [stat, Prod.mk.injEq] at h1; exact h1.2.2.2.2.2.1
    · exact absurd h1 hj
  have keep : ∀ j, j ≠ i → (j ∈ s.sco.paused → j ∈ s'.sco.paused) → coW s' j ≤ coW s j := by
    intro j hj hp
    unfold coW; rw [pcs j hj, cln j hj, show decide (j ∈ s'.all) = decide (j ∈ s.all) by simp [tauCo_alls h hj]]
    exact Nat.add_le_add_right (pcW_z _ _ _ _ (by simpa using hp)) _
  have up : ∀ j, j ≠ i → coW s' j ≤ coW s j + 400 := by
    intro j hj
    unfold coW; rw [pcs j hj, cln j hj, show decide (j ∈ s'.all) = decide (j ∈ s.all) by simp [tauCo_alls h hj]]
    have := pcW_up (decide (j ∈ s.sco.paused)) (decide (j ∈ s'.sco.paused)) (decide (j ∈ s.all)) (s.co j).pc
    omega
  rcases tauCo_less r hf hc h hf' with ⟨h1, h2⟩ | ⟨h1, h2, h3, h4, h5, h6, h7⟩
  · left
    rcases tauCo_wakes hc h with hw | ⟨_, h4, id, hw⟩
    · have : ∀ j, coW s' j + (if j = i then 1 else 0) ≤ coW s j := by
        intro j; by_cases e : j = i
        · subst e; simp; omega
        · simp [e]; exact keep j e (hw j)
      have := natSum_le (n := s.sco.nextId + 1) this
      rw [natSum_at, if_pos (by omega)] at this
      unfold allW; rw [hn]; omega
    · have h2 := h2 h4
      have : ∀ j, coW s' j + (if j = i then 401 else 0) ≤ coW s j + if j = id then 400 else 0 := by
        intro j; by_cases e : j = i
        · subst e; simp; omega
        · by_cases e2 : j = id
          · subst e2; simp [e]; exact up j e
          · simp [e, e2]; exact keep j e (hw j e2)
      have := natSum_le (n := s.sco.nextId + 1) this
      rw [natSum_at, natSum_at, if_pos (by omega)] at this
      have h5 : (if id < s.sco.nextId + 1 then 400 else 0) ≤ 400 := by split <;> omega
      unfold allW; rw [hn]; omega
  · right
    refine ⟨?_, h4, h5, h6, h1, h7⟩
    unfold allW; rw [hn]
    refine natSum_congr fun j => ?_
    by_cases e : j = i
    · subst e; exact h3
    · unfold coW; rw [pcs j e, cln j e, h4, show decide (j ∈ s'.all) = decide (j ∈ s.all) by simp [tauCo_alls h e]]

end Neco.Rt
