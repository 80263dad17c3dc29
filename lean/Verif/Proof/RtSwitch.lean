import Verif.Proof.RtCall
/-!
# Where a coroutine can be while it does not run
-/
namespace Neco.Rt
open Neco.Err

/-- the calls that switch to another coroutine when their result is already settled -/
def hands : Call → Bool
  | .start | .genStart | .resume _ | .send _ _ _ | .genYield _ _ | .recv _ _ | .tryrecv _ | .wgDone _ | .cvSignal _ => true
  | _ => false

/-- places in the library where control can be passed to somebody else -/
def sw (c : Call) : Pc → Bool
  | .ret _ => hands c
  | .yck _ _ | .yld _ _ | .selGot _ _ _ | .blk _ | .workWait | .workTry | .dead | .user => true
  | .go _ | .cancelTry | .relock | .exitRun _ => false

def Sw (s t : S) (i : Nat) (c : Call) : Prop := t.sco = s.sco ∨ sw c (t.co i).pc = true

theorem sw_copause (s t : S) (i : Nat) (dl : Int) (b : Blk) (c : Call) : Sw s (copause t i dl b) i c := .inr (by rw [pc_copause]; rfl)
theorem sw_coyield (s t : S) (i n : Nat) (a : Aft) (c : Call) : Sw s (coyield t i n a) i c := .inr (by rw [pc_coyield]; rfl)
theorem sw_yfsr (s t : S) (i n : Nat) (a : Aft) (c : Call) : Sw s (yfsr t i n a) i c := .inr (by rw [(pc_yfsr ..).choose_spec]; rfl)
theorem sw_retv {s t : S} {i : Nat} {v : Int} {c : Call} (h : t.sco = s.sco) : Sw s (retv t i v) i c := .inl (by simpa using h)
theorem sw_hand {s t : S} {i k : Nat} {v : Int} {c : Call} (h : hands c = true) : Sw s (scoResume (retv t i v) k) i c := .inr (by rw [pc_scoResume, pc_retv]; exact h)

theorem sw_send (s : S) (i c : Nat) (m : Msg) (dl : Int) {k : Call} (hk : hands k = true) : Sw s (chanSend s i c m dl) i k := by
  unfold chanSend sendRest
  dsimp only
  (repeat' split) <;> first | exact .inl rfl | exact sw_retv rfl | exact sw_hand hk | exact sw_copause .. | exact sw_retv (by simp)

theorem sw_recv (s : S) (i c : Nat) (try' : Bool) (dl : Int) {k : Call} (hk : hands k = true) : Sw s (chanRecv s i c try' dl) i k := by
  unfold chanRecv
  dsimp only
  (repeat' split) <;> first | exact .inl rfl | exact sw_retv rfl | exact sw_copause .. | (refine .inr ?_; rw [pc_resumeOpt, pc_retv]; exact hk)

theorem sw_close1 (s : S) (i c : Nat) (ch : Chan) (a : Aft) (k : Call) : Sw s (chanClose1 s i c ch a) i k := by
  unfold chanClose1
  dsimp only
  split
  · exact .inl rfl
  · exact sw_yfsr ..

theorem sw_doCall {s : S} {i : Nat} (c : Call) (hw : i ≤ s.sco.nextId) : Sw s (doCall s i c) i c := by
  have hne : i ≠ s.sco.nextId + 1 := by omega
  cases c
  case start => exact .inr (by simp [doCall, doStart, upd_co, hne, sw, hands])
  case genStart => exact .inr (by simp [doCall, doGenStart, doStart, upd_co, hne, sw, hands])
  all_goals simp only [doCall]
  case send => exact sw_send _ _ _ _ _ rfl
  case recv => exact sw_recv _ _ _ _ _ rfl
  case tryrecv => exact sw_recv _ _ _ _ _ rfl
  case genYield =>
    unfold doGenYield
    split
    · exact sw_retv rfl
    · exact sw_send _ _ _ _ _ rfl
  case close =>
    unfold chanClose
    (repeat' split) <;> first | exact .inl rfl | exact sw_retv rfl | exact sw_close1 ..
  case bcast => unfold chanBcast; dsimp only; (repeat' split) <;> first | exact .inl rfl | exact sw_retv rfl | exact sw_yfsr ..
  case select =>
    unfold chanSelect; dsimp only
    (repeat' split) <;> first | exact .inl rfl | exact sw_retv rfl | exact sw_copause .. | (refine .inr ?_; rw [pc_resumeOpt, pc_setPc]; rfl)
  case tryselect =>
    unfold chanSelect; dsimp only
    (repeat' split) <;> first | exact .inl rfl | exact sw_retv rfl | exact sw_copause .. | (refine .inr ?_; rw [pc_resumeOpt, pc_setPc]; rfl)
  case lock => unfold muLock finishLock; dsimp only; (repeat' split) <;> first | exact sw_retv rfl | exact sw_copause ..
  case rdlock => unfold muRdlock finishLock; dsimp only; (repeat' split) <;> first | exact sw_retv rfl | exact sw_copause ..
  case unlock => unfold muUnlock; split <;> first | exact sw_yfsr .. | exact sw_coyield ..
  case wgDone => unfold wgDone; dsimp only; (repeat' split) <;> first | exact sw_retv rfl | exact sw_hand rfl | exact sw_yfsr ..
  case wgWait => unfold wgWait; dsimp only; (repeat' split) <;> first | exact sw_retv rfl | exact sw_coyield .. | exact sw_copause ..
  case cvSignal => unfold cvSignal; (repeat' split) <;> first | exact sw_retv rfl | exact sw_hand rfl
  case cvBcast => exact sw_yfsr ..
  case cvWait => unfold cvWait cvEnq; dsimp only; (repeat' split) <;> first | exact sw_retv rfl | exact sw_yfsr .. | exact sw_copause ..
  case sleep => unfold doSleep; split <;> first | exact sw_retv rfl | exact sw_copause ..
  case join => unfold doJoin; dsimp only; (repeat' split) <;> first | exact sw_retv rfl | exact sw_copause ..
  case suspend => exact sw_copause ..
  case resume => unfold doResume; (repeat' split) <;> first | exact sw_retv rfl | exact sw_hand rfl
  case yield => exact sw_coyield ..
  case sigWait => unfold doSigWait; dsimp only; (repeat' split) <;> first | exact sw_retv rfl | exact sw_copause ..
  case wait => exact sw_copause ..
  case chRetain => split <;> exact .inl rfl
  all_goals exact .inl (by simp)

theorem sw_cancel (s : S) (i id : Nat) (dl : Int) (k : Call) : Sw s (doCancel s i id dl) i k := by
  unfold doCancel
  dsimp only
  (repeat' split) <;> first | exact sw_retv rfl | exact sw_copause .. | (refine .inr ?_; rw [pc_scoResume, pc_setPc]; rfl)

theorem sw_afterBlk (s : S) (i : Nat) (b : Blk) (k : Call) : Sw s (afterBlk s i b) i k := by
  unfold afterBlk
  dsimp only
  (repeat' split) <;> exact .inl (by simp)

theorem sw_relock (s : S) (i m : Nat) (k : Call) : Sw s (doRelock s i m) i k := by
  unfold doRelock finishLock
  dsimp only
  (repeat' split) <;> first | exact sw_copause .. | exact .inl (by simp)

theorem sw_exit (s : S) (i : Nat) (a : Bool) (k : Call) : Sw s (doExit s i a) i k := by
  have hn : Sw s (exitNotify s i a) i k := by
    unfold exitNotify
    dsimp only
    (repeat' split) <;> first | (refine .inl ?_; simp; done) | (refine (sw_close1 ..).imp (fun h => h.trans ?_) id; simp)
  unfold doExit
  (repeat' split) <;> first | (refine .inl ?_; simp; done) | exact hn

theorem sw_aft (s : S) (i : Nat) (a : Aft) (k : Call) : Sw s (doAft s i a) i k := by
  unfold doAft cvEnq
  dsimp only
  (repeat' split) <;> first | (refine .inl ?_; simp; done) | exact sw_copause .. | exact sw_yfsr .. | (refine .inr ?_; unfold doFin; simp [setPc, upd_co, sw])

theorem sw_tauCo {s s' : S} {i : Nat} (hs : tauCo s i = some s') (k : Call) : Sw s s' i k := by
  unfold tauCo at hs
  split at hs
  · cases hs
  · cases hs
  · cases hs
  · cases hs; exact .inl (by simp)
  · (repeat' split at hs) <;> cases hs <;> first | (refine .inl ?_; simp; done) | exact sw_coyield ..
  · cases hs; exact sw_coyield ..
  · cases hs; exact sw_aft ..
  · cases hs; exact .inl (by simp)
  · cases hs; refine (sw_afterBlk ..).imp (fun h => h.trans ?_) id; simp
  · split at hs <;> cases hs <;> first | (refine .inl ?_; simp; done) | exact sw_cancel ..
  · split at hs <;> cases hs <;> first | (refine .inl ?_; simp; done) | exact sw_relock ..
  · cases hs; exact .inl (by simp)
  · cases hs; exact sw_exit ..

/-- a coroutine that does not run is at a place where control can be passed -/
theorem switch_point {ok} {s : S} (r : Reach ok s) {j : Nat} (hj : s.sco.cur ≠ some j) : sw (s.co j).call (s.co j).pc = true := by
  induction r with
  | init a e => have : ((init a e).co j).pc = .user := by unfold init; dsimp only; split <;> rfl
                rw [this]; rfl
  | @step s s' r a hok hs ih =>
    by_cases hc : s.sco.cur = some j
    · have hs0 := hs
      cases a with
      | call c =>
        obtain ⟨hu, hn, rfl⟩ := step_call_of hs hc
        have hw : j ≤ s.sco.nextId := (cur_le (reach_scoWF r) hc).2
        rcases sw_doCall (s := callSt s j c) c hw with h | h
        · rw [h] at hj; exact absurd hc hj
        · rw [doCall_call (s := callSt s j c) c hw, show ((callSt s j c).co j).call = c from by simp [callSt, upd_co]]; exact h
      | finish =>
        unfold step at hs; split at hs; · cases hs
        simp only [hc] at hs; split at hs <;> cases hs; exact absurd hc hj
      | tau =>
        have ht : tauCo s j = some s' := by
          unfold step at hs; split at hs; · cases hs
          simpa only [hc] using hs
        exact ((sw_tauCo ht (s'.co j).call).resolve_left (fun h => hj (by rw [h]; exact hc)))
      | submit o =>
        unfold step at hs; split at hs; · cases hs
        simp only [hc] at hs
        split at hs
        · rename_i hp; split at hs <;> cases hs
          · rw [show ((_ : S).co j).pc = _ from pc_setPc ..]; rfl
          · simp [hp, sw]
        · cases hs
      | events evs =>
        unfold step at hs; split at hs; · cases hs
        simp [hc] at hs
      | clock t => unfold step at hs; split at hs; · cases hs
                   simp only at hs; split at hs <;> cases hs; exact absurd hc hj
      | signal n => unfold step at hs; split at hs; · cases hs
                    simp only at hs; (repeat' split at hs) <;> cases hs <;> exact absurd hc hj
      | wdone k => unfold step at hs; split at hs; · cases hs
                   simp only at hs; split at hs <;> cases hs; exact absurd hc hj
    · by_cases hn : (a = .call .start ∨ a = .call .genStart) ∧ j = s.sco.nextId + 1
      · obtain ⟨ha, rfl⟩ := hn
        obtain ⟨i, g, _, e1, _⟩ := start_new ha hs
        rw [e1, (newCo_pc s i g).1]; rfl
      · have hm := step_other (reach_invL r) (reach_invC r) hs hc (fun ha e => hn ⟨ha, e⟩) (((reach_invF r).cf j).evU)
        rw [hm.pc.1, hm.pc.2]; exact ih hc

/-- somebody who is in a suspend call, and not running, is suspended -/
theorem suspended_iff {ok} {s : S} (r : Reach ok s) (hf : s.fault = false) {t : Nat} (hc : s.sco.cur ≠ some t) (hl : t ∈ live s.log) :
    (s.co t).suspended = true ↔ ∃ dl, pending t s.log = some (.suspend dl) := by
  have hF := (reach_invF r).cf t
  constructor
  · intro hsu
    obtain ⟨dl, hbk, _⟩ := hF.bc _ (hF.su.mp hsu)
    exact ⟨dl, (pending_call r).mpr ⟨hbk, by simp⟩⟩
  · rintro ⟨dl, hpd⟩
    have hcall := ((pending_call r).mp hpd).1
    have hN := (reach_invN r hf t).ft
    have hsw := switch_point r hc
    have hgo : (s.co t).pc.gone = false := by
      cases hx : (s.co t).pc.gone with
      | false => rfl
      | true => have := (reach_invD r).ga t hx; rw [all_live r] at this; exact absurd hl this
    apply hF.su.mpr
    unfold fits at hN
    rw [hcall] at hsw
    cases hpc : (s.co t).pc with
    | user => rw [hpc] at hN; simp only at hN; rw [hcall] at hN; cases hN
    | ret v => rw [hpc] at hsw; cases hsw
    | yck n a =>
      rw [hpc] at hN hgo; cases a <;> simp only [Pc.gone, Aft.exiting] at hN hgo
      case ret v => rw [hcall] at hN; cases hN.1
      case condEnq => rw [hcall] at hN; obtain ⟨_, _, _, h⟩ := hN; cases h
      all_goals cases hgo
    | yld n a =>
      rw [hpc] at hN hgo; cases a <;> simp only [Pc.gone, Aft.exiting] at hN hgo
      case ret v => rw [hcall] at hN; cases hN.1
      case condEnq => rw [hcall] at hN; obtain ⟨_, _, _, h⟩ := hN; cases h
      all_goals cases hgo
    | go a => rw [hpc] at hsw; cases hsw
    | selGot a b c => rw [hpc] at hN; simp only at hN; rw [hcall] at hN; obtain ⟨cs, h1, _⟩ := hN; cases h1
    | blk b =>
      obtain ⟨dl', hbk, _⟩ := hF.bc b hpc
      rw [hcall] at hbk
      cases b <;> simp [BlkC] at hbk <;> first | rfl | (rename_i x; cases x <;> simp [BlkC] at hbk)
    | cancelTry => rw [hpc] at hsw; cases hsw
    | relock => rw [hpc] at hsw; cases hsw
    | workTry => rw [hpc] at hN; simp only at hN; rw [hcall] at hN; cases hN
    | workWait => rw [hpc] at hN; simp only at hN; rw [hcall] at hN; cases hN
    | exitRun a => rw [hpc] at hsw; cases hsw
    | dead => rw [hpc] at hgo; cases hgo

/-- a coroutine that is about to return does so in the next step -/
theorem returns_of_ret {s s0 : S} {i : Nat} {c : Call} {v : Int} (hg : ¬ (s0.dead = true ∨ s0.fault = true ∨ s0.main = .done)) (hc : s.sco.cur = some i)
    (h1 : s.dead = s0.dead) (h2 : s.fault = s0.fault) (h3 : s.main = s0.main) (hp : (s.co i).pc = .ret v) (hcl : (s.co i).call = c)
    (hv : v ≠ CANCELED ∨ c.guarded = false ∨ (s.co i).async = false) : ∃ d, Returns s i c v d := by
  refine ⟨(s.co i).rdat, ?_⟩
  unfold Returns
  have : step s .tau = some (doRet s i v) := by
    unfold step; rw [h1, h2, h3, if_neg hg]; simp only [hc, tauCo, hp]
  refine ⟨_, this, ?_⟩
  unfold doRet
  rw [if_neg]
  · simp [hcl]
  · rw [hcl]; rintro ⟨a, b, e⟩; rcases hv with h | h | h
    · exact h a
    · rw [h] at b; cases b
    · rw [h] at e; cases e

/-- a blocked coroutine in a call other than `neco_work` -/
theorem blocked_blk {ok} {s : S} (r : Reach ok s) {i : Nat} {c : Call} (hb : i ∈ s.sco.paused) (hp : pending i s.log = some c) (hw : (s.co i).pc ≠ .workWait) :
    ∃ b, (s.co i).pc = .blk b ∧ ∃ dl, BlkC b c dl ∧ (s.co i).deadline = dl ∧ (s.co i).paused = true := by
  have hF := (reach_invF r).cf i
  have hcall := ((pending_call r).mp hp).1
  rcases hF.sp hb with ⟨h1, h2⟩ | h1
  · cases hpc : (s.co i).pc <;> rw [hpc] at h1 <;> simp [Pc.isBlk] at h1
    rename_i b
    obtain ⟨dl, hbk, hd⟩ := hF.bc b hpc
    rw [hcall] at hbk
    exact ⟨b, rfl, dl, hbk, hd h2, h2⟩
  · exact absurd h1 hw

/-- how a step of the running coroutine inside the library can settle a result -/
inductive SettleBy (s : S) (j : Nat) (v : Int) : Prop
  | go (h : (s.co j).pc = .go (.ret v)) (hy : yields (s.co j).call = true)
  | sel (k c : Nat) (w : Int) (h : (s.co j).pc = .selGot k c w) (hc : ∃ cs, selCs (s.co j).call = some cs) (hv : v = k)
  | work (h : (s.co j).pc = .workWait) (hc : (s.co j).call = .work) (hv : v = OK)
  | blk (b : Blk) (dl : Int) (h : (s.co j).pc = .blk b) (hc : BlkC b (s.co j).call dl)
  | cancel (t : Nat) (dl : Int) (h : (s.co j).pc = .cancelTry) (hc : (s.co j).call = .cancel t dl)
  | relock (q m : Nat) (dl : Int) (h : (s.co j).pc = .relock) (hc : (s.co j).call = .cvWait q m dl)

theorem settle_by {ok} {s s' : S} {j : Nat} {v : Int} (r : Reach ok s) (hc : s.sco.cur = some j) (hs : step s .tau = some s') (hp : (s'.co j).pc = .ret v)
    (hn : ∀ w, (s.co j).pc ≠ .ret w) : SettleBy s j v := by
  have hN := (reach_invN r (step_nofault hs) j).ft
  have hF := (reach_invF r).cf j
  have hg := step_guard hs
  unfold step at hs; rw [if_neg hg] at hs; simp only [hc] at hs
  unfold fits at hN
  unfold tauCo at hs
  split at hs <;> rename_i hq
  · cases hs
  · cases hs
  · cases hs
  · exact absurd hq (hn _)
  · (repeat' split at hs) <;> cases hs
    · rw [pc_setPc] at hp; cases hp
    · rw [pc_setPc] at hp; cases hp
    · rw [pc_coyield] at hp; cases hp
  · cases hs; rw [pc_coyield] at hp; cases hp
  · cases hs
    rename_i a
    cases a with
    | ret w => simp only [doAft, pc_retv] at hp; cases hp; rw [hq] at hN; exact .go hq hN.1
    | condEnq =>
      simp only [doAft] at hp
      split at hp
      · unfold cvEnq at hp; rw [pc_copause] at hp; cases hp
      · exact absurd hp (by rw [show (({ s with fault := true } : S).co j).pc = _ from hq]; simp)
    | genRel x y =>
      simp only [doAft] at hp
      split at hp
      · rw [pc_setPc] at hp; cases hp
      · exact absurd hp (by rw [show (({ s with fault := true } : S).co j).pc = _ from hq]; simp)
    | exitTail x y =>
      simp only [doAft] at hp
      split at hp
      · rw [(pc_yfsr ..).choose_spec] at hp; cases hp
      · rw [pc_setPc] at hp; cases hp
    | fin x => simp [doAft, doFin, setPc, upd_co] at hp
  · cases hs; simp [pc_retv] at hp; rw [hq] at hN; obtain ⟨cs, h1, _⟩ := hN; exact .sel _ _ _ hq ⟨cs, h1⟩ (by omega)
  · cases hs; obtain ⟨dl, h1, _⟩ := hF.bc _ hq; exact .blk _ dl hq h1
  · split at hs <;> cases hs
    · rename_i hx; exact .cancel _ _ hq hx
    · exact absurd hp (by rw [show (({ s with fault := true } : S).co j).pc = _ from hq]; simp)
  · split at hs <;> cases hs
    · rename_i hx; exact .relock _ _ _ hq hx
    · exact absurd hp (by rw [show (({ s with fault := true } : S).co j).pc = _ from hq]; simp)
  · cases hs; rw [pc_retv] at hp; cases hp; rw [hq] at hN; exact .work hq hN rfl
  · cases hs
    exfalso
    rename_i a
    have : tauCo s j = some (doExit s j a) := by unfold tauCo; rw [hq]
    have := tauCo_exiting this (by rw [hq]; rfl)
    rw [hp] at this; cases this

/-- nobody is blocked joining itself -/
theorem join_other {ok} {s : S} (r : Reach ok s) {j t : Nat} {dl : Int} (hp : (s.co j).pc = .blk .join) (hc : (s.co j).call = .join t dl) : t ≠ j := by
  induction r with
  | init a e => have : ((init a e).co j).pc = .user := by unfold init; dsimp only; split <;> rfl
                rw [this] at hp; cases hp
  | @step s s' r a hok hs ih =>
    by_cases hj : s.sco.cur = some j
    · have hg := step_guard hs
      cases a with
      | call c =>
        obtain ⟨hu, hn, rfl⟩ := step_call_of hs hj
        have hw : j ≤ s.sco.nextId := (cur_le (reach_scoWF r) hj).2
        rw [doCall_call (s := callSt s j c) c hw, show ((callSt s j c).co j).call = c from by simp [callSt, upd_co]] at hc
        subst hc
        simp only [doCall, doJoin] at hp
        (repeat' split at hp)
        · rw [pc_retv] at hp; cases hp
        · rw [pc_retv] at hp; cases hp
        · rw [pc_retv] at hp; cases hp
        · assumption
      | tau =>
        unfold step at hs; rw [if_neg hg] at hs; simp only [hj] at hs
        rcases tauCo_blk hs hp with ⟨h, _⟩ | ⟨h, _⟩ | ⟨h, _⟩ <;> cases h
      | finish =>
        unfold step at hs; rw [if_neg hg] at hs; simp only [hj] at hs
        split at hs <;> cases hs
        rw [pc_setPc] at hp; cases hp
      | submit o =>
        unfold step at hs; rw [if_neg hg] at hs; simp only [hj] at hs
        (repeat' split at hs) <;> cases hs
        · simp [pc_setPc] at hp
        · exact ih hp hc
      | events evs =>
        unfold step at hs; rw [if_neg hg] at hs; simp [hj] at hs
      | clock x => unfold step at hs; rw [if_neg hg] at hs; simp only at hs; split at hs <;> cases hs; exact ih hp hc
      | signal n => unfold step at hs; rw [if_neg hg] at hs; simp only at hs; (repeat' split at hs) <;> cases hs <;> exact ih hp hc
      | wdone k => unfold step at hs; rw [if_neg hg] at hs; simp only at hs; split at hs <;> cases hs; exact ih hp hc
    · by_cases hn : (a = .call .start ∨ a = .call .genStart) ∧ j = s.sco.nextId + 1
      · obtain ⟨ha, rfl⟩ := hn
        obtain ⟨i, g, _, e1, _⟩ := start_new ha hs
        rw [e1, (newCo_pc s i g).1] at hp; cases hp
      · have hm := step_other (reach_invL r) (reach_invC r) hs hj (fun ha e => hn ⟨ha, e⟩) (((reach_invF r).cf j).evU)
        exact ih (hm.pc.1 ▸ hp) (hm.pc.2 ▸ hc)

end Neco.Rt
