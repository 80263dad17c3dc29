import Verif.Proof.RtTurn2
import Verif.Proof.RtQueue
import Verif.Proof.RtRef4
/-!
# The library comes to rest

A weight of every coroutine that each step of the library lowers.
-/
namespace Neco.Rt
open Neco.Err

/-- weight of what follows the last yield -/
def goW : Aft → Nat
  | .ret _ => 262
  | .condEnq => 420
  | .genRel true _ => 80
  | .genRel false _ => 30
  | .exitTail true _ => 75
  | .exitTail false _ => 20
  | .fin _ => 10

/-- weight of a place; `z`: paused, `l`: not ended -/
def pcW (z l : Bool) : Pc → Nat
  | .user | .dead | .workTry => 0
  | .ret _ => 260
  | .go a => goW a
  | .yck n a => goW a + 60 + n
  | .yld n a => goW a + 61 + n
  | .selGot _ _ _ => 270
  | .workWait => if z then 0 else 270
  | .blk .cancel => if z then 1000 else 1021
  | .blk .cond => if z then 0 else 400
  | .blk .relock => if z then 0 else 320
  | .blk _ => if z then 0 else 300
  | .cancelTry => 1020
  | .relock => 310
  | .exitRun _ => if l then 200 else 50

/-- weight of a coroutine -/
def coW (s : S) (j : Nat) : Nat := pcW (decide (j ∈ s.sco.paused)) (decide (j ∈ s.all)) (s.co j).pc + (s.co j).cleanup.length

theorem pcW_z (z z' l : Bool) (p : Pc) (h : z = true → z' = true) : pcW z' l p ≤ pcW z l p := by
  cases p with
  | blk b => cases b <;> cases z <;> cases z' <;> simp_all [pcW]
  | workWait => cases z <;> cases z' <;> simp_all [pcW]
  | _ => exact Nat.le_refl _
theorem pcW_up (z z' l : Bool) (p : Pc) : pcW z' l p ≤ pcW z l p + 400 := by
  cases p with
  | blk b => cases b <;> cases z <;> cases z' <;> simp [pcW]
  | workWait => cases z <;> cases z' <;> simp [pcW]
  | _ => exact Nat.le_add_right _ _

/-- who leaves the paused when the library goes on -/
theorem tauCo_wakes {s s' : S} {i : Nat} (hc : s.sco.cur = some i) (h : tauCo s i = some s') :
    (∀ j, j ∈ s.sco.paused → j ∈ s'.sco.paused) ∨
    ((s.co i).pc = .cancelTry ∧ (s'.co i).pc = .yld 0 (.ret OK) ∧ ∃ id, ∀ j, j ≠ id → j ∈ s.sco.paused → j ∈ s'.sco.paused) := by
  have cp : ∀ (t : S) dl b, t.sco = s.sco → ∀ j, j ∈ s.sco.paused → j ∈ (copause t i dl b).sco.paused := by
    intro t dl b e j hj
    rw [copause_sco, e]; split
    · exact hj
    · rw [pause_paused _ hc]; exact List.mem_cons_of_mem _ hj
  unfold tauCo at h
  split at h
  case h_1 => cases h
  case h_2 => cases h
  case h_3 => cases h
  case h_4 => left; cases h; unfold doRet; split <;> exact fun j hj => hj
  case h_5 => left; (repeat' split at h) <;> cases h <;> simp [coyield]
  case h_6 => left; cases h; simp [coyield]
  case h_7 a hp =>
    left; cases h
    cases a with
    | ret v => exact fun j hj => hj
    | condEnq =>
      simp only [doAft]; split
      · unfold cvEnq; exact cp _ _ _ (by simp)
      · exact fun j hj => hj
    | genRel x y => simp only [doAft]; split <;> simp
    | exitTail x y => simp only [doAft]; split <;> simp [yfsr, coyield]
    | fin a => simp only [doAft, doFin]; split <;> simp
  case h_8 => left; cases h; exact fun j hj => hj
  case h_9 b _ => left; cases h; cases b <;> simp only [afterBlk] <;> (repeat' split) <;> simp
  case h_10 hp =>
    split at h
    · rename_i id dl _
      cases h
      unfold doCancel; split
      · left; simp
      split
      · left; simp
      dsimp only; split
      · right
        refine ⟨hp, by simp [setPc_co], id, fun j hj hm => ?_⟩
        simp only [scoResume]
        unfold Sco.resume; split
        · simp [Sco.wake, hj]; exact hm
        · simpa using hm
      · left; exact cp _ _ _ (by simp)
    · left; cases h; exact fun j hj => hj
  case h_11 =>
    left
    split at h
    · cases h
      unfold doRelock; (repeat' split)
      · simp
      · simp
      · simp
      · unfold finishLock; exact cp _ _ _ (by simp)
    · cases h; exact fun j hj => hj
  case h_12 => left; cases h; exact fun j hj => hj
  case h_13 a hp =>
    left; cases h
    have ex : ∀ x, (∀ j, j ∈ s.sco.paused → j ∈ (exitNotify s i x).sco.paused) := by
      intro x j hj
      unfold exitNotify
      extract_lets t1 qc t2 qj t3 sched
      have h3 : t3.sco = s.sco := by simp [t3, t2, t1]
      (repeat' split) <;> try (simp [h3, hj]; done)
      unfold chanClose1; dsimp only; split <;> simp [yfsr, coyield, h3, hj]
    unfold doExit; (repeat' split) <;> first | exact ex _ | exact fun j hj => hj

theorem exited_not_all {ok} {s : S} (r : Reach ok s) {i : Nat} (h : i ∉ s.all) (hi : 1 ≤ i ∧ i ≤ s.sco.nextId) : .exit i ∈ s.log := by
  have hA := reach_invA r
  have hst : i ∈ starts (rl s) := by rw [hA.st]; simp; omega
  rw [hA.al] at h
  have key : ∀ l : List Ev, i ∈ starts l → i ∉ live l → .exit i ∈ l := by
    intro l
    induction l with
    | nil => intro h; cases h
    | cons e l ih =>
      cases e <;> simp only [starts, live, List.mem_cons, List.mem_filter, decide_eq_true_eq] <;> intro h1 h2 <;> try exact .inr (ih h1 h2)
      · rcases h1 with h1 | h1
        · exact absurd (.inl h1) h2
        · exact .inr (ih h1 (fun hm => h2 (.inr hm)))
      · rename_i k
        by_cases e : i = k
        · subst e; exact .inl rfl
        · exact .inr (ih h1 (fun hm => h2 ⟨hm, e⟩))
  exact (mem_rl rfl).mp (key _ hst h)

/-- each step of the library lowers the weight of the running coroutine -/
theorem tauCo_less {ok} {s s' : S} {i : Nat} (r : Reach ok s) (hf : s.fault = false) (hc : s.sco.cur = some i) (h : tauCo s i = some s') (hf' : s'.fault = false) :
    (coW s' i < coW s i ∧ ((s'.co i).pc = .yld 0 (.ret OK) → coW s' i + 400 < coW s i)) ∨
    ((s.co i).pc = .relock ∧ (s'.co i).pc = .relock ∧ coW s' i = coW s i ∧ s'.sco = s.sco ∧ (s'.co i).canceled = false ∧ (s'.co i).deadlined = false ∧
      ((s.co i).canceled = true ∨ (s.co i).deadlined = true)) := by
  have hw := reach_scoWF r
  have hnp : i ∉ s.sco.paused := WF.cur_not_paused hw hc
  have hi := cur_le hw hc
  have hft := (reach_invN r hf i).ft
  have hcl : (∀ a, (s.co i).pc ≠ .exitRun a) → (s'.co i).cleanup = (s.co i).cleanup := by
    intro hx
    rcases tauCo_stat (j := i) h with h1 | ⟨_, ⟨v, _, h1⟩ | ⟨x, q, h1, _⟩ | ⟨x, y, _, h1⟩⟩
    · simp only [stat, Prod.mk.injEq] at h1; exact h1.2.2.2.2.2.1
    · simp only [stat, Prod.mk.injEq] at h1; exact h1.2.2.2.2.2.1
    · exact absurd h1 (hx _)
    · simp only [stat, Prod.mk.injEq] at h1; exact h1.2.2.2.2.2.1
  have pex : ∀ z l a, pcW z l (.exitRun a) ≤ 200 := by intro z l a; cases l <;> simp [pcW]
  -- a place and its weight
  have fin : ∀ {p p' : Pc}, (s.co i).pc = p → (s'.co i).pc = p' → (∀ a, p ≠ .exitRun a) → p' ≠ .yld 0 (.ret OK) →
      pcW (decide (i ∈ s'.sco.paused)) (decide (i ∈ s'.all)) p' < pcW (decide (i ∈ s.sco.paused)) (decide (i ∈ s.all)) p →
      (coW s' i < coW s i ∧ ((s'.co i).pc = .yld 0 (.ret OK) → coW s' i + 400 < coW s i)) := by
    intro p p' h1 h2 h3 h4 h5
    refine ⟨?_, fun h6 => absurd (h2.symm.trans h6) h4⟩
    unfold coW; rw [hcl (by rw [h1]; exact h3), h1, h2]; omega
  have h0 := h
  unfold tauCo at h
  split at h
  case h_1 => cases h
  case h_2 => cases h
  case h_3 => cases h
  case h_4 v hp =>
    cases h; left
    by_cases hk : v = CANCELED ∧ (s.co i).call.guarded = true ∧ (s.co i).async = true
    · exact fin hp (p' := .exitRun true) (by unfold doRet; rw [if_pos hk, pc_setPc]) (by simp) (by simp) (Nat.lt_of_le_of_lt (pex _ _ _) (by simp [pcW]))
    · exact fin hp (p' := .user) (by unfold doRet; rw [if_neg hk]; simp [upd_co]) (by simp) (by simp) (by simp [pcW])
  case h_5 n a hp =>
    left
    by_cases hk : (s.co i).canceled = true ∧ (s.co i).async = true
    · rw [if_pos hk] at h; cases h
      refine fin hp (p' := .exitRun true) (by rw [pc_setPc]) (by simp) (by simp) ?_
      cases ha : a.exiting with
      | true =>
        have := (reach_invD r).ga i (by rw [hp]; exact ha)
        have : i ∉ (setPc (note s (.kill i true)) i (.exitRun true)).all := this
        simp only [pcW, this, decide_false, Bool.false_eq_true, if_false]; omega
      | false =>
        refine Nat.lt_of_le_of_lt (pex _ _ _) ?_
        cases a <;> simp [Aft.exiting] at ha <;> simp [pcW, goW] <;> omega
    · rw [if_neg hk] at h
      cases n with
      | zero => cases h; exact fin hp (p' := .go a) (by rw [pc_setPc]) (by simp) (by simp) (by simp [pcW])
      | succ n => cases h; exact fin hp (p' := .yck n a) (by simp [coyield, setPc_co]) (by simp) (by simp) (by simp [pcW])
  case h_6 n a hp =>
    left; cases h
    exact fin hp (p' := .yck n a) (by simp [coyield, setPc_co]) (by simp) (by simp) (by simp [pcW])
  case h_7 a hp =>
    left; cases h
    cases a with
    | ret v => exact fin hp (p' := .ret v) (by simp only [doAft]; rw [pc_retv]) (by simp) (by simp) (by simp [pcW, goW])
    | condEnq =>
      unfold fits at hft; rw [hp] at hft; dsimp only at hft
      obtain ⟨v, m, dl, e⟩ := hft
      refine fin hp (p' := .blk .cond) (by simp only [doAft, e]; unfold cvEnq; rw [pc_copause]) (by simp) (by simp) ?_
      simp only [pcW, goW]; split <;> omega
    | genRel x y =>
      obtain ⟨g, hg⟩ := Option.ne_none_iff_exists'.mp (reach_rel r i (by rw [hp]; rfl))
      refine fin hp (p' := .go (.exitTail x y)) (by simp only [doAft, hg]; rw [pc_setPc]) (by simp) (by simp) ?_
      cases x <;> simp [pcW, goW]
    | exitTail x y =>
      cases x with
      | true =>
        obtain ⟨n, hn⟩ := pc_yfsr s i 0 (.fin y)
        refine fin hp (p' := .yck ((if s.nresumers > 0 then 1 else 0) + 0) (.fin y)) (by simp only [doAft, if_pos]; simp [yfsr, coyield, setPc_co]) (by simp) (by simp) ?_
        simp only [pcW, goW]; split <;> omega
      | false => exact fin hp (p' := .go (.fin y)) (by simp [doAft, setPc_co]) (by simp) (by simp) (by simp [pcW, goW])
    | fin a => exact fin hp (p' := .dead) (by simp [doAft, doFin, setPc_co]) (by simp) (by simp) (by simp [pcW, goW])
  case h_8 k c v hp =>
    left; cases h
    exact fin hp (p' := .ret k) (by rw [pc_retv]) (by simp) (by simp) (by simp [pcW])
  case h_9 b hp =>
    left; cases h
    cases b
    case cancel =>
      exact fin hp (p' := .cancelTry) (by simp only [afterBlk]; rw [pc_setPc]) (by simp) (by simp) (by simp [pcW, hnp])
    case cond =>
      exact fin hp (p' := .relock) (by simp only [afterBlk]; rw [pc_setPc]) (by simp) (by simp) (by simp [pcW, hnp])
    case relock =>
      have : ∃ p', ((afterBlk (preBlk (unpause s i) i .relock) i .relock).co i).pc = p' ∧ (p' = .exitRun true ∨ p' = .relock ∨ ∃ v, p' = .ret v) := by
        simp only [afterBlk]; (repeat' split)
        · exact ⟨_, pc_retv .., .inr (.inr ⟨_, rfl⟩)⟩
        · exact ⟨_, pc_setPc .., .inl rfl⟩
        · exact ⟨_, pc_setPc .., .inr (.inl rfl)⟩
      obtain ⟨p', h1, rfl | rfl | ⟨v, rfl⟩⟩ := this
      · exact fin hp h1 (by simp) (by simp) (Nat.lt_of_le_of_lt (pex _ _ _) (by simp [pcW, hnp]))
      · exact fin hp h1 (by simp) (by simp) (by simp [pcW, hnp])
      · exact fin hp h1 (by simp) (by simp) (by simp [pcW, hnp])
    case recv =>
      have : ∃ v, ((afterBlk (preBlk (unpause s i) i .recv) i .recv).co i).pc = .ret v := by
        simp only [afterBlk]; (repeat' split) <;> exact ⟨_, pc_retv ..⟩
      obtain ⟨v, h1⟩ := this
      exact fin hp h1 (by simp) (by simp) (by simp [pcW, hnp])
    all_goals
      refine fin hp (p' := .ret _) (by simp only [afterBlk]; rw [pc_retv]) (by simp) (by simp) (by simp [pcW, hnp])
  case h_10 hp =>
    left
    unfold fits at hft; rw [hp] at hft; dsimp only at hft
    obtain ⟨id, dl, e⟩ := hft
    rw [e] at h; cases h
    unfold doCancel at *
    by_cases h1 : id ∉ s.all
    · simp only [if_pos h1] at *
      exact fin hp (p' := .ret _) (pc_retv ..) (by simp) (by simp) (by simp [pcW])
    simp only [if_neg h1] at *
    by_cases h2 : dlCode s i dl ≠ OK
    · simp only [if_pos h2] at *
      exact fin hp (p' := .ret _) (pc_retv ..) (by simp) (by simp) (by simp [pcW])
    simp only [if_neg h2] at *
    by_cases h3 : ((dlClear s i).co id).enabled = true
    · simp only [if_pos h3] at *
      have hpc : ∀ t : S, ((scoResume (setPc t i (.yld 0 (.ret OK))) id).co i).pc = .yld 0 (.ret OK) := by intro t; simp [scoResume, setPc_co]
      have : ∀ u : S, (u.co i).pc = .yld 0 (.ret OK) → (u.co i).cleanup = (s.co i).cleanup → coW u i + 400 < coW s i := by
        intro u e1 e2
        unfold coW; rw [hp, e1, e2]; simp [pcW, goW]; omega
      have h4 := this _ (hpc _) (hcl (by rw [hp]; simp))
      exact ⟨by omega, fun _ => h4⟩
    · simp only [if_neg h3] at *
      refine fin hp (p' := .blk .cancel) (pc_copause ..) (by simp) (by simp) ?_
      have : i ∈ (copause (push (dlClear s i) (.cancelQ id) (.co i)) i dl .cancel).sco.paused := by
        rw [copause_sco, if_neg (by simp [dlClear_co])]
        rw [show (push (dlClear s i) (.cancelQ id) (.co i)).sco = s.sco by simp, pause_paused _ hc]; exact List.mem_cons_self
      simp [pcW, this]
  case h_11 hp =>
    unfold fits at hft; rw [hp] at hft; dsimp only at hft
    obtain ⟨v, m, dl, e, _⟩ := hft
    rw [e] at h; cases h
    unfold doRelock at *
    by_cases h1 : (s.mu m).locked = false
    · left
      simp only [if_pos h1] at *
      exact fin hp (p' := .ret _) (pc_retv ..) (by simp) (by simp) (by simp [pcW])
    simp only [if_neg h1] at *
    by_cases h2 : dlCode s i MAX = CANCELED ∧ (s.co i).async = true
    · left
      simp only [if_pos h2] at *
      exact fin hp (p' := .exitRun true) (pc_setPc ..) (by simp) (by simp) (Nat.lt_of_le_of_lt (pex _ _ _) (by simp [pcW]))
    simp only [if_neg h2] at *
    by_cases h3 : dlCode s i MAX ≠ OK
    · right
      simp only [if_pos h3] at *
      refine ⟨hp, pc_setPc .., ?_, rfl, by simp [setPc_co, dlClear_co], by simp [setPc_co, dlClear_co], ?_⟩
      · unfold coW; rw [hp, pc_setPc, hcl (by rw [hp]; simp)]; rfl
      · unfold dlCode at h3
        by_cases e : (s.co i).canceled = true
        · exact .inl e
        · rw [if_neg e] at h3
          split at h3
          · rename_i h4; rcases h4 with h4 | h4
            · exact .inr h4
            · exact absurd h4.1 (by simp [MAX])
          · exact absurd rfl h3
    · left
      simp only [if_neg h3] at *
      refine fin hp (p' := .blk .relock) (by unfold finishLock; rw [pc_copause]) (by simp) (by simp) ?_
      have : i ∈ (finishLock (dlClear s i) i m false MAX .relock).sco.paused := by
        unfold finishLock
        rw [copause_sco, if_neg (by simp [dlClear_co, upd_co])]
        simp only [push_sco, upd_sco, dlClear_sco]
        rw [pause_paused _ hc]; exact List.mem_cons_self
      simp [pcW, this]
  case h_12 hp =>
    left; cases h
    exact fin hp (p' := .ret _) (pc_retv ..) (by simp) (by simp) (by simp [pcW, hnp])
  case h_13 a hp =>
    left; cases h
    have hx : ∀ x, (s.co i).pc = .exitRun x → (exitNotify s i x).fault = false → coW (exitNotify s i x) i < coW s i ∧ ((exitNotify s i x).co i).pc ≠ .yld 0 (.ret OK) := by
      intro x hx hfx
      have hE := reach_invE r
      have hQ := reach_invQ r
      generalize hu : exitNotify s i x = u at hfx ⊢
      unfold exitNotify at hu
      extract_lets t1 qc t2 qj t3 sched at hu
      have h3 : t3.co = s.co ∧ t3.chan = s.chan := by simp [t3, t2, t1]
      have hm : (if i ∈ s.all then 200 else 50) = pcW (decide (i ∈ s.sco.paused)) (decide (i ∈ s.all)) (s.co i).pc := by
        rw [hx]; by_cases e : i ∈ s.all <;> simp [pcW, e]
      have hsc : i ∉ s.all → sched = false := by
        intro hi0
        have h1 : s.lists (.cancelQ i) = [] := List.eq_nil_iff_forall_not_mem.mpr fun n hn => hi0 (hQ i n (.inr hn))
        have h2 : s.lists (.joinQ i) = [] := List.eq_nil_iff_forall_not_mem.mpr fun n hn => hi0 (hQ i n (.inl hn))
        have h4 : qc = [] := h1
        have h5 : qj = [] := by
          show t2.lists (.joinQ i) = []
          simp [t2, h4, schedAll, setList, t1, h2]
        simp [sched, h4, h5]
      have done : ∀ (u : S) (p : Pc), (u.co i).pc = p → (u.co i).cleanup = (s.co i).cleanup → (∀ z l, pcW z l p < if i ∈ s.all then 200 else 50) → p ≠ .yld 0 (.ret OK) →
          coW u i < coW s i ∧ (u.co i).pc ≠ .yld 0 (.ret OK) := by
        intro u p h1 h2 h4 h5
        refine ⟨?_, h1 ▸ h5⟩
        unfold coW; rw [← hm, h1, h2]; have := h4 (decide (i ∈ u.sco.paused)) (decide (i ∈ u.all)); omega
      split at hu
      · rename_i hg
        subst hu
        refine done _ (.go (.exitTail sched x)) (pc_setPc ..) (by simp [setPc_co, h3.1]) (fun z l => ?_) (by simp)
        by_cases e : i ∈ s.all
        · cases sched <;> simp [pcW, goW, e]
        · rw [hsc e]; simp [pcW, goW, e]
      · rename_i g hg
        split at hu
        · subst hu; cases hfx
        · rename_i ch hch
          split at hu
          · rename_i hcl1
            subst hu
            refine done _ (.go (.genRel sched x)) (pc_setPc ..) (by simp [setPc_co, h3.1]) (fun z l => ?_) (by simp)
            by_cases e : i ∈ s.all
            · cases sched <;> simp [pcW, goW, e]
            · rw [hsc e]; simp [pcW, goW, e]
          · rename_i hcl1
            subst hu
            have e : i ∈ s.all := by
              refine Classical.byContradiction fun e => ?_
              have hex := exited_not_all r e hi
              rw [h3.1] at hg; rw [h3.2] at hch
              rcases hE.co i with h1 | h1
              · exact hcl1 ((hE.sh hf i g hex (h1.symm.trans hg)).2 ch hch)
              · rw [h1.1] at hg; cases hg
            unfold chanClose1
            extract_lets t4
            split
            · refine done _ (.go (.genRel sched x)) (pc_setPc ..) (by simp [setPc_co, t4, h3.1]) (fun z l => ?_) (by simp)
              cases sched <;> simp [pcW, goW, e]
            · refine done _ (.yck _ (.genRel sched x)) (by unfold yfsr; rw [pc_coyield]) (by
                have h5 := stat_closeLoop t4 g (t4.lists (.chanQ g)) i
                simp only [stat, Prod.mk.injEq] at h5
                have h6 := h5.2.2.2.2.2.1.trans (show (t4.co i).cleanup = (s.co i).cleanup by simp [t4, h3.1])
                simpa [yfsr, coyield, setPc_co] using h6) (fun z l => ?_) (by simp)
              rw [if_pos e]
              cases sched <;> simp only [pcW, goW] <;> split <;> omega
    have hcase : (∃ h q, (s.co i).cleanup = h :: q ∧ doExit s i a = note (upd s i (fun k => { k with cleanup := q })) (.clean i h)) ∨ doExit s i a = exitNotify s i a := by
      unfold doExit; (repeat' split)
      · rename_i h q hq; exact .inl ⟨h, q, hq, rfl⟩
      · exact .inr rfl
      · exact .inr rfl
    rcases hcase with ⟨h, q, hq, e⟩ | e
    · rw [e]
      have h1 : ((note (upd s i (fun k => { k with cleanup := q })) (.clean i h)).co i).pc = .exitRun a := by simp [upd_co, hp]
      refine ⟨?_, fun e => by rw [h1] at e; cases e⟩
      have h2 : ∀ u : S, (u.co i).pc = .exitRun a → (u.co i).cleanup = q → u.sco = s.sco → u.all = s.all → coW u i < coW s i := by
        intro u e1 e2 e3 e4; unfold coW; rw [e1, e2, e3, e4, hp, hq]; simp
      exact h2 _ h1 (by simp [upd_co]) rfl rfl
    · rw [e] at hf' ⊢
      have := hx a hp hf'
      exact ⟨this.1, fun e => absurd e this.2⟩

end Neco.Rt
