import Verif.Proof.RtGen2
import Verif.Proof.RtClose
/-!
# How a step changes a program counter; generators and their ends
-/
namespace Neco.Rt
open Neco.Err

/-- how a step changes the place of coroutine `j` -/
inductive PcStep (s : S) (a : Act) (j : Nat) (s' : S) : Prop
  | same (h : (s'.co j).pc = (s.co j).pc)
  | new (ha : a = .call .start ∨ a = .call .genStart) (hj : j = s.sco.nextId + 1) (h : (s'.co j).pc = .user)
  | call (c : Call) (ha : a = .call c) (hc : s.sco.cur = some j) (hu : (s.co j).pc = .user) (h : s' = doCall (callSt s j c) j c)
  | finish (ha : a = .finish) (hc : s.sco.cur = some j) (hu : (s.co j).pc = .user) (h : s' = setPc s j (.exitRun false))
  | tau (ha : a = .tau) (hc : s.sco.cur = some j) (h : tauCo s j = some s')
  | submit (ha : a = .submit true) (hc : s.sco.cur = some j) (hp : (s.co j).pc = .workTry) (h : (s'.co j).pc = .workWait)

theorem step_pcs {ok} {s s' : S} {a : Act} (r : Reach ok s) (hs : step s a = some s') (j : Nat) : PcStep s a j s' := by
  by_cases hj : s.sco.cur = some j
  · have hs0 := hs
    unfold step at hs
    split at hs
    · cases hs
    cases a with
    | call c =>
      obtain ⟨h1, _, h2⟩ := step_call_of hs0 hj
      exact .call c rfl hj h1 h2
    | finish =>
      simp only [hj] at hs
      split at hs <;> cases hs
      rename_i hu
      exact .finish rfl hj hu rfl
    | tau => simp only [hj] at hs; exact .tau rfl hj hs
    | submit b =>
      simp only [hj] at hs
      split at hs
      · rename_i hp
        split at hs <;> cases hs
        · rename_i hb; subst hb; exact .submit rfl hj hp (pc_setPc ..)
        · exact .same rfl
      · cases hs
    | events evs =>
      simp only at hs
      split at hs
      · rename_i h1; rw [hj] at h1; simp at h1
      · cases hs
    | clock t => simp only at hs; split at hs <;> cases hs; exact .same rfl
    | signal n => simp only at hs; (repeat' split at hs) <;> cases hs <;> exact .same rfl
    | wdone k => simp only at hs; split at hs <;> cases hs; exact .same rfl
  · by_cases hn : (a = .call .start ∨ a = .call .genStart) ∧ j = s.sco.nextId + 1
    · obtain ⟨ha, rfl⟩ := hn
      obtain ⟨i, g, _, e1, _⟩ := start_new ha hs
      exact .new ha rfl (by rw [e1]; exact (newCo_pc s i g).1)
    · exact .same (step_other (reach_invL r) (reach_invC r) hs hj (fun ha e => hn ⟨ha, e⟩) (((reach_invF r).cf j).evU)).pc.1

/-! ## The release of the generator -/

structure InvT (s : S) : Prop where
  tl : ∀ i, tailPc (s.co i).pc = true → (s.co i).gen = none
  pool : ∀ p ∈ s.pool, p.1.gen = none

theorem InvT.step {ok} {s s' : S} {a : Act} (h : InvT s) (r : Reach ok s) (hs : Rt.step s a = some s') : InvT s' := by
  have hw := reach_scoWF r
  refine ⟨fun i hi => ?_, fun p hp => ?_⟩
  · rcases step_pcs r hs i with h1 | ⟨_, _, h1⟩ | ⟨c, ha, hc, hu, h1⟩ | ⟨_, _, _, h1⟩ | ⟨ha, hc, h1⟩ | ⟨_, _, _, h1⟩
    · rw [h1] at hi
      rcases step_stat hw hs i with ⟨h3, h4⟩ | ⟨cl, ha, hc, hp, h3⟩ | ⟨k, g, ha, hi', hj, h3⟩ | ⟨x, ha, hc, hp, h3⟩ | ⟨x, q, ha, hc, hp, hq, h3⟩ | ⟨x, y, ha, hc, hp, h3⟩
      · rw [stat_gen h3]; exact h.tl i hi
      · rw [hp] at hi; cases hi
      · rw [h3, (newCo_pc s k g).1] at h1; rw [← h1] at hi; cases hi
      · rw [hp] at hi; cases hi
      · rw [hp] at hi; cases hi
      · rw [hp] at hi; cases hi
    · rw [h1] at hi; cases hi
    · subst h1
      have := doCall_tail (callSt s i c) i c (by rw [callSt_field Co.pc (by intros; rfl), hu]; rfl) (cur_le hw hc).2
      rw [this] at hi; cases hi
    · rw [h1, pc_setPc] at hi; cases hi
    · exact tauCo_tail h1 (h.tl i) hi
    · rw [h1] at hi; cases hi
  · rcases step_pool hs p hp with ⟨q, hq, e⟩ | ⟨i, x, _, hpc, e⟩
    · rw [← e]; exact h.pool q hq
    · rw [e]; exact h.tl i (by rw [hpc]; rfl)

theorem reach_invT {ok} {s : S} (r : Reach ok s) : InvT s := by
  induction r with
  | init a e => exact ⟨fun i _ => by unfold init; dsimp only; split <;> rfl, fun p hp => by simp [init] at hp⟩
  | step h a ho hs ih => exact ih.step h hs

/-! ## After the exit was announced -/

def pastAft : Aft → Bool
  | .genRel _ _ | .exitTail _ _ | .fin _ => true
  | _ => false
def pastPc : Pc → Bool
  | .go a | .yck _ a | .yld _ a => pastAft a
  | .dead => true
  | _ => false

theorem tauCo_past {s s' : S} {i : Nat} (h : tauCo s i = some s') (h1 : pastPc (s'.co i).pc = true) : pastPc (s.co i).pc = true ∨ .exit i ∈ s'.log := by
  have hex := h
  unfold tauCo at h
  split at h
  case h_1 => cases h
  case h_2 => cases h
  case h_3 => cases h
  case h_4 => cases h; exfalso; revert h1; unfold doRet; split <;> simp [pastPc, upd_co]
  case h_5 n a hp =>
    left; rw [hp]
    (repeat' split at h) <;> cases h
    · rw [pc_setPc] at h1; cases h1
    · rw [pc_setPc] at h1; exact h1
    · rw [pc_coyield] at h1; exact h1
  case h_6 n a hp =>
    left; rw [hp]
    cases h; rw [pc_coyield] at h1; exact h1
  case h_7 a hp =>
    left; rw [hp]
    cases h
    cases a with
    | ret v => simp [doAft, pastPc] at h1
    | condEnq => exfalso; revert h1; simp only [doAft, cvEnq]; (repeat' split) <;> simp_all [pastPc, pastAft]
    | _ => rfl
  case h_8 => cases h; simp [pastPc] at h1
  case h_9 b _ => cases h; exfalso; revert h1; cases b <;> simp only [afterBlk] <;> (repeat' split) <;> simp [pastPc, pastAft]
  case h_10 hp =>
    exfalso; revert h1
    (split at h) <;> cases h
    · unfold doCancel; (try dsimp only); (repeat' split) <;> simp_all [pastPc, pastAft]
    · simp [hp, pastPc]
  case h_11 hp =>
    exfalso; revert h1
    (split at h) <;> cases h
    · unfold doRelock finishLock; (try dsimp only); (repeat' split) <;> simp_all [pastPc, pastAft]
    · simp [hp, pastPc]
  case h_12 => cases h; simp [pastPc] at h1
  case h_13 a hp =>
    have ex : ∀ x, .exit i ∈ (exitNotify s i x).log := by
      intro x
      obtain ⟨e1, e2, h, _⟩ := exitNotify_log s i x
      rw [h]; simp
    cases h
    revert h1
    unfold doExit; (repeat' split)
    · intro h1; simp [upd_co, hp, pastPc] at h1
    · exact fun _ => .inr (ex _)
    · exact fun _ => .inr (ex _)

theorem chanClose1_past {s : S} {i c : Nat} {ch : Chan} {a : Aft} (h : pastAft a = false) : pastPc ((chanClose1 s i c ch a).co i).pc = false := by
  unfold chanClose1; dsimp only; split
  · rw [pc_setPc]; cases a <;> first | rfl | cases h
  · rw [(pc_yfsr ..).choose_spec]; cases a <;> first | rfl | cases h

macro "past_tac" : tactic => `(tactic| ((try dsimp only); (repeat' split) <;> (try simp_all [pastPc, pastAft])))

theorem doCall_past (s : S) (i : Nat) (c : Call) (hu : pastPc (s.co i).pc = false) (hn : i ≤ s.sco.nextId) :
    pastPc ((doCall s i c).co i).pc = false := by
  cases c <;> simp only [doCall]
  case none => exact hu
  case send => unfold chanSend sendRest; past_tac
  case genYield => unfold doGenYield chanSend sendRest; past_tac
  case recv => unfold chanRecv; past_tac
  case select => unfold chanSelect; past_tac
  case start => simp [doStart_pc s i none hn, pastPc]
  case genStart => unfold doGenStart; dsimp only; rw [doStart_pc _ _ _ (by exact hn)]; rfl
  case yield => simp [pastPc, pastAft]
  case sleep => unfold doSleep; past_tac
  case join => unfold doJoin; past_tac
  case suspend => unfold doSuspend; past_tac
  case resume => unfold doResume; past_tac
  case bcast => unfold chanBcast; past_tac
  case tryrecv =>
    unfold chanRecv; (repeat' split) <;> first | exact hu | (simp [pastPc, pastAft]; done) | skip
    skip
  case close =>
    unfold chanClose; (repeat' split) <;> first | exact hu | (simp [pastPc, pastAft]; done) | exact chanClose1_past rfl
  case tryselect =>
    unfold chanSelect; dsimp only; (repeat' split) <;> first | exact hu | (simp [pastPc, pastAft]; done) | skip
    skip
  case lock => unfold muLock finishLock; past_tac
  case rdlock => unfold muRdlock finishLock; past_tac
  case unlock => unfold muUnlock; past_tac
  case trylock => unfold muTrylock; past_tac
  case tryrdlock => unfold muTryrdlock; past_tac
  case wgAdd => unfold wgAdd; past_tac
  case wgDone => unfold wgDone; past_tac
  case wgWait => unfold wgWait; past_tac
  case cvSignal => unfold cvSignal; past_tac
  case cvBcast => unfold cvBcast; past_tac
  case cvWait => unfold cvWait cvEnq; past_tac
  case sigWatch => unfold doSigWatch; past_tac
  case sigUnwatch => unfold doSigUnwatch; past_tac
  case sigWait => unfold doSigWait; past_tac
  case wait => unfold doWait; past_tac
  case chRetain => past_tac
  case chCase => unfold chanCase; past_tac
  case cpop => unfold doCpop; past_tac
  all_goals simp [pastPc, pastAft]

/-- no new exit event, except when a coroutine announces its end -/
theorem step_exitEv {s s' : S} {a : Act} (hs : step s a = some s') {k : Nat} (h : .exit k ∈ s'.log) :
    .exit k ∈ s.log ∨ (a = .tau ∧ s.sco.cur = some k ∧ ∃ x, (s.co k).pc = .exitRun x ∧ s' = exitNotify s k x) := by
  obtain ⟨es, h1, h2⟩ := step_adds hs
  have h0 := h
  rw [h1] at h
  rcases List.mem_append.mp h with h | h
  · have := h2 _ h
    cases a <;> simp only [stepKinds, Ev.kind] at this <;> try (simp at this; done)
    · rename_i c; cases c <;> simp [callKinds] at this
    · split at this
      · rename_i i hc
        unfold step at hs
        split at hs
        · cases hs
        simp only [hc] at hs
        cases hp : (s.co i).pc <;> rw [hp] at this <;> simp [pcKinds] at this
        case blk b => cases b <;> simp [pcKinds] at this
        rename_i x
        unfold tauCo at hs; rw [hp] at hs; simp only at hs; cases hs
        have hx : ∀ x, .exit k ∈ (exitNotify s i x).log → k = i ∨ .exit k ∈ s.log := by
          intro x hx
          obtain ⟨e1, e2, e3, e4, e5⟩ := exitNotify_log s i x
          rw [e3] at hx
          simp only [List.mem_append, List.mem_cons] at hx
          rcases hx with hx | hx | hx | hx
          · obtain ⟨_, hx⟩ := e5 _ hx; cases hx
          · obtain ⟨_, hx⟩ := e4 _ hx; cases hx
          · cases hx; exact .inl rfl
          · exact .inr hx
        unfold doExit at h0 ⊢
        (repeat' split at h0)
        · left; simpa using h0
        · rcases hx _ h0 with rfl | hx
          · exact .inr ⟨rfl, hc, x, hp, by simp_all⟩
          · exact .inl hx
        · rcases hx _ h0 with rfl | hx
          · exact .inr ⟨rfl, hc, x, hp, by simp_all⟩
          · exact .inl hx
      · cases hm : s.main <;> rw [hm] at this <;> simp [mainKinds] at this
  · exact .inl h

theorem step_genOf {s s' : S} {a : Act} (hs : step s a = some s') {j : Nat} (hn : a = .call .start ∨ a = .call .genStart → j ≠ s.sco.nextId + 1) : genOf j s'.log = genOf j s.log := by
  by_cases ha : a = .call .start ∨ a = .call .genStart
  · obtain ⟨i, g, _, _, _, _, _, _, _, hl, _⟩ := start_new ha hs
    have hj := hn ha
    rcases hl with hl | hl <;> rw [hl] <;> simp only [genOf] <;> rw [if_neg (fun e => hj e.symm)]
  · obtain ⟨es, h1, h2⟩ := step_adds hs
    rw [h1]
    refine genOf_app h2 ?_
    intro hk
    cases a <;> simp only [stepKinds] at hk <;> try (simp at hk; done)
    · rename_i c; cases c <;> simp [callKinds] at hk ha
    · split at hk
      · cases hp : (s.co _).pc <;> rw [hp] at hk <;> simp [pcKinds] at hk
        case blk b => cases b <;> simp [pcKinds] at hk
      · cases hm : s.main <;> rw [hm] at hk <;> simp [mainKinds] at hk

structure InvE (s : S) : Prop where
  co : ∀ i, (s.co i).gen = genOf i s.log ∨ ((s.co i).gen = none ∧ .exit i ∈ s.log)
  pp : ∀ i, pastPc (s.co i).pc = true → .exit i ∈ s.log
  le : ∀ i, .exit i ∈ s.log → i ≤ s.sco.nextId
  sh : s.fault = false → ∀ i c, .exit i ∈ s.log → genOf i s.log = some c → Shut s c

theorem InvE.step {ok} {s s' : S} {a : Act} (h : InvE s) (r : Reach ok s) (hs : Rt.step s a = some s') : InvE s' := by
  have hw := reach_scoWF r
  obtain ⟨es, hes⟩ := step_suffix hs
  have mono : ∀ {e}, e ∈ s.log → e ∈ s'.log := by intro e he; rw [hes]; exact List.mem_append_right _ he
  refine ⟨fun i => ?_, fun i hi => ?_, fun i hi => ?_, fun hf i c hi hg => ?_⟩
  · by_cases hn : (a = .call .start ∨ a = .call .genStart) ∧ i = s.sco.nextId + 1
    · obtain ⟨ha, rfl⟩ := hn
      left
      have hg0 : ∀ k g, (newCo s k g).gen = g := by
        intro k g; unfold newCo; split
        · rfl
        · rename_i c x q e
          have := (reach_invT r).pool (c, x) (by rw [e]; simp)
          cases g <;> simp_all
      rcases ha with rfl | rfl
      · obtain ⟨k, hc, hu, _, e⟩ := step_call hs
        have hk := (cur_le hw hc).2
        have hl : s'.log = .start (some k) (s.sco.nextId + 1) :: .call k .start :: s.log := by rw [e]; rfl
        have hc : s'.co (s.sco.nextId + 1) = newCo s k none := by rw [e]; exact if_pos rfl
        rw [hl, hc, hg0]; simp [genOf]
      · obtain ⟨k, hc, hu, _, e⟩ := step_call hs
        have hk := (cur_le hw hc).2
        have hl : s'.log = .start (some k) (s.sco.nextId + 1) :: .call k .genStart :: s.log := by rw [e]; rfl
        have hc : s'.co (s.sco.nextId + 1) = newCo s k (some s.nchan) := by rw [e]; exact if_pos rfl
        rw [hl, hc, hg0]; simp [genOf, makers_made, (reach_invK2 r).n]
    · rw [step_genOf hs (fun ha e => hn ⟨ha, e⟩)]
      rcases step_stat hw hs i with ⟨h3, h4⟩ | ⟨cl, ha, hc, hp, h3⟩ | ⟨k, g, ha, hi', hj, h3⟩ | ⟨x, ha, hc, hp, h3⟩ | ⟨x, q, ha, hc, hp, hq, h3⟩ | ⟨x, y, ha, hc, hp, h3⟩
      · rw [stat_gen h3]; exact (h.co i).imp id (fun h => ⟨h.1, mono h.2⟩)
      · rw [stat_gen h3, callStat_gen]; exact (h.co i).imp id (fun h => ⟨h.1, mono h.2⟩)
      · exact absurd ⟨ha.imp And.left And.left, hj⟩ hn
      · rw [stat_gen h3]; exact (h.co i).imp id (fun h => ⟨h.1, mono h.2⟩)
      · rw [stat_gen h3]; exact (h.co i).imp id (fun h => ⟨h.1, mono h.2⟩)
      · right; exact ⟨stat_gen h3, mono (h.pp i (by rw [hp]; rfl))⟩
  · rcases step_pcs r hs i with h1 | ⟨_, _, h1⟩ | ⟨c, ha, hc, hu, h1⟩ | ⟨_, _, _, h1⟩ | ⟨ha, hc, h1⟩ | ⟨_, _, _, h1⟩
    · rw [h1] at hi; exact mono (h.pp i hi)
    · rw [h1] at hi; cases hi
    · subst h1
      have := doCall_past (callSt s i c) i c (by rw [callSt_field Co.pc (by intros; rfl), hu]; rfl) (cur_le hw hc).2
      rw [this] at hi; cases hi
    · rw [h1, pc_setPc] at hi; cases hi
    · rcases tauCo_past h1 hi with h2 | h2
      · exact mono (h.pp i h2)
      · exact h2
    · rw [h1] at hi; cases hi
  · rcases step_exitEv hs hi with h1 | ⟨_, hc, x, _, rfl⟩
    · exact Nat.le_trans (h.le i h1) (step_nextId hw hs)
    · rw [nx_exitNotify]; exact (cur_le hw hc).2
  · rcases step_exitEv hs hi with h1 | ⟨ha, hc, x, hp, e⟩
    · have := h.le i h1
      rw [step_genOf hs (fun _ => by omega)] at hg
      exact (h.sh (step_nofault hs) i c h1 hg).step hs
    · rw [step_genOf hs (by rintro (e | e) <;> rw [ha] at e <;> cases e)] at hg
      rcases h.co i with hco | ⟨_, hex⟩
      · rw [hg] at hco
        unfold exitNotify at e; dsimp only at e
        split at e
        · rename_i e0; simp at e0; rw [e0] at hco; cases hco
        · rename_i g e0
          simp at e0; rw [e0] at hco; cases hco
          split at e
          · subst e; cases hf
          · rename_i ch hch
            have hch0 : s.chan c = some ch := by simpa using hch
            have hlt := chan_lt r hch0
            split at e
            · rename_i hsc
              subst e
              exact ⟨by simpa using hlt, fun ch' e' => by simp at e'; rw [hch0] at e'; cases e'; exact hsc⟩
            · subst e
              refine ⟨?_, fun ch' e' => chanClose1_sclosed hch e'⟩
              unfold chanClose1; dsimp only; split <;> simpa using hlt
      · exact (h.sh (step_nofault hs) i c hex hg).step hs

theorem reach_invE {ok} {s : S} (r : Reach ok s) : InvE s := by
  induction r with
  | init a e =>
    refine ⟨fun i => .inl ?_, fun i hi => ?_, fun i hi => by simp [init] at hi, fun _ i c hi => by simp [init] at hi⟩
    · have : genOf i (init a e).log = none := by
        show (if 1 = i then _ else _) = none
        split <;> rfl
      rw [this]; unfold init; dsimp only; split <;> rfl
    · have : ((init a e).co i).pc = .user := by unfold init; dsimp only; split <;> rfl
      rw [this] at hi; cases hi
  | step h a ho hs ih => exact ih.step h hs

/-- an exit is for good -/
theorem reach_gone {ok} {s : S} (r : Reach ok s) {i : Nat} (h : .exit i ∈ s.log) : (s.co i).pc.exiting = true := by
  induction r with
  | init a e => simp [init] at h
  | @step s s' r a hok hs ih =>
    rcases step_exitEv hs h with h1 | ⟨ha, hc, x, hp, e⟩
    · have ih := ih h1
      have hle := (reach_invE r).le i h1
      rcases step_pcs r hs i with h2 | ⟨_, hj, h2⟩ | ⟨c, ha, hc, hu, h2⟩ | ⟨_, _, hu, h2⟩ | ⟨ha, hc, h2⟩ | ⟨_, _, hp, h2⟩
      · rw [h2]; exact ih
      · omega
      · rw [hu] at ih; cases ih
      · rw [hu] at ih; cases ih
      · exact tauCo_exiting h2 ih
      · rw [hp] at ih; cases ih
    · subst ha
      have hg := step_guard hs
      unfold Rt.step at hs
      rw [if_neg hg] at hs
      simp only [hc] at hs
      exact tauCo_exiting hs (by rw [hp]; rfl)

/-! ## What enters the channel of a generator -/

def PG : Ev → List Ev → Prop
  | .put c i m, l => (∃ dl, pending i l = some (.send c m dl)) ∨ (genOf i l = some c ∧ ∃ dl, pending i l = some (.genYield m dl))
  | _, _ => True

theorem PG.other {e : Ev} (h : e.kind ≠ .put) (b : List Ev) : PG e b := by
  cases e <;> simp [PG, Ev.kind] at h ⊢

theorem chanSend_pg {s : S} {i c : Nat} {m : Msg} {dl : Int} (h : Hist PG s.log) (hc : PG (.put c i m) s.log) :
    Hist PG (chanSend s i c m dl).log := by
  unfold chanSend
  split
  · exact h
  rename_i ch e
  split
  · exact h
  rename_i hs
  split
  · exact h
  have hp : Hist PG (note s (.put c i m)).log := ⟨hc, h⟩
  have hl : Hist PG (sendTry (note s (.put c i m)) c m ch).1.log := by
    unfold sendTry; split
    · rcases sendLoop_log (note s (.put c i m)) c m ((note s (.put c i m)).lists (.chanQ c)) with h1 | ⟨r, h1, h2, h3⟩
      · rw [h1.2]; exact hp
      · rw [h2]; exact ⟨trivial, hp⟩
    · exact hp
  dsimp only
  split
  · simpa using hl
  · unfold sendRest; split
    · simpa using hl
    · simpa using hl

theorem reach_pg {ok} {s : S} (r : Reach ok s) : Hist PG s.log := by
  induction r with
  | init a e => simp [init, Hist, PG]
  | @step s s' r a hok hs ih =>
    cases a with
    | call cl =>
      obtain ⟨i, hcur, hu, hn, rfl⟩ := step_call hs
      have h0 : Hist PG (callSt s i cl).log := ⟨trivial, ih⟩
      have hq : (∀ k ∈ callKinds cl, k ≠ .put) → Hist PG (doCall (callSt s i cl) i cl).log := fun hk =>
        h0.adds (doCall_adds _ _ _) (fun e b he => PG.other (hk _ he) b)
      have hpend : pending i (callSt s i cl).log = some cl := by simp [callSt, pending]
      cases cl <;> first | (apply hq; simp [callKinds]; done) | skip
      · exact chanSend_pg h0 (.inl ⟨_, hpend⟩)
      · simp only [doCall, doGenYield]
        split
        · exact h0
        · rename_i c hg
          rw [callSt_field Co.gen (by intros; rfl)] at hg
          refine chanSend_pg h0 (.inr ⟨?_, _, hpend⟩)
          rcases (reach_invE r).co i with h | ⟨h, _⟩
          · rw [hg] at h; exact h.symm
          · rw [hg] at h; cases h
    | _ =>
      apply ih.adds (step_adds hs)
      intro e b he
      apply PG.other
      simp only [stepKinds] at he
      first
      | (simp at he; done)
      | (intro e'; rw [e'] at he; (repeat' split at he) <;> simp [pcKinds, mainKinds] at he <;> (repeat' split at he) <;> simp at he)

theorem makers_mono (e : Ev) (l : List Ev) : (makers l).length ≤ (makers (e :: l)).length := by
  cases e <;> first | exact Nat.le_refl _ | skip
  rename_i i c
  cases c <;> first | exact Nat.le_refl _ | exact Nat.le_succ _

theorem genOf_lt {j c : Nat} {l : List Ev} (h : genOf j l = some c) : c < (makers l).length := by
  induction l with
  | nil => cases h
  | cons e l ih =>
    cases e
    case start p k =>
      simp only [genOf] at h
      split at h
      · split at h
        · split at h
          · cases h; simp [makers]
          · cases h
        · cases h
      · exact ih h
    all_goals exact Nat.lt_of_lt_of_le (ih h) (makers_mono _ _)

theorem genOf_inj {i j c : Nat} {l : List Ev} (hi : genOf i l = some c) (hj : genOf j l = some c) : i = j := by
  induction l with
  | nil => cases hi
  | cons e l ih =>
    cases e
    case start p k =>
      simp only [genOf] at hi hj
      have key : ∀ i, (match l with | .call q .genStart :: l' => if p = some q then some (makers l').length else none | _ => none) = some c → genOf i l ≠ some c := by
        intro i h1 h2
        split at h1
        · split at h1
          · rename_i q l' _; cases h1; exact absurd (genOf_lt (l := l') h2) (Nat.lt_irrefl _)
          · cases h1
        · cases h1
      split at hi <;> split at hj
      · rename_i e1 e2; rw [← e1, ← e2]
      · exact absurd hj (key j hi)
      · exact absurd hi (key i hj)
      · exact ih hi hj
    all_goals exact ih hi hj

end Neco.Rt
