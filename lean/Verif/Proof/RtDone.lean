import Verif.Proof.RtPend
/-!
# When a coroutine is over
-/
namespace Neco.Rt
open Neco.Err

/-! ## The list of finished coroutines changes only when one finishes -/

@[simp] theorem done_switch (t : Sco) (b : Bool) : (t.switch b).done = t.done := by
  unfold Sco.switch
  split
  · split
    · rfl
    · unfold Sco.dispatch; split <;> rfl
  · unfold Sco.dispatch; split <;> rfl
@[simp] theorem done_yield (t : Sco) : t.yield.done = t.done := by unfold Sco.yield; split <;> simp
@[simp] theorem done_pause (t : Sco) : t.pause.done = t.done := by unfold Sco.pause; split <;> simp
@[simp] theorem done_start (t : Sco) : t.start.done = t.done := by unfold Sco.start; split <;> rfl
@[simp] theorem done_resume (t : Sco) (i : Nat) : (t.resume i).done = t.done := by unfold Sco.resume; split <;> simp [Sco.wake]
@[simp] theorem done_resume0 (t : Sco) : t.resume0.done = t.done := by unfold Sco.resume0; simp
@[simp] theorem done_finish (t : Sco) : t.finish.done = t.cur.toList ++ t.done := by unfold Sco.finish; simp
@[simp] theorem done_exit (t : Sco) : t.exit.done = t.cur.toList ++ t.done := by unfold Sco.exit; simp
@[simp] theorem dn_copause (s : S) (i : Nat) (dl : Int) (b : Blk) : (copause s i dl b).sco.done = s.sco.done := by
  rw [copause_sco]; split <;> simp

@[simp] theorem dn_coyield (s : S) (i n : Nat) (a : Aft) : (coyield s i n a).sco.done = s.sco.done := by
  unfold coyield; (try dsimp only); (repeat' split) <;> simp
@[simp] theorem dn_yfsr (s : S) (i n : Nat) (a : Aft) : (yfsr s i n a).sco.done = s.sco.done := by
  unfold yfsr; (try dsimp only); (repeat' split) <;> simp
@[simp] theorem dn_scoResume (s : S) (i : Nat) : (scoResume s i).sco.done = s.sco.done := by
  unfold scoResume; (try dsimp only); (repeat' split) <;> simp
@[simp] theorem dn_sendRest (s : S) (i c : Nat) (m : Msg) (dl : Int) (ch : Chan) : (sendRest s i c m dl ch).sco.done = s.sco.done := by
  unfold sendRest; (try dsimp only); (repeat' split) <;> simp
@[simp] theorem dn_chanSend (s : S) (i c : Nat) (m : Msg) (dl : Int) : (chanSend s i c m dl).sco.done = s.sco.done := by
  unfold chanSend; (try dsimp only); (repeat' split) <;> simp
@[simp] theorem dn_chanBcast (s : S) (i c : Nat) (m : Msg) : (chanBcast s i c m).sco.done = s.sco.done := by
  unfold chanBcast; (try dsimp only); (repeat' split) <;> simp
@[simp] theorem dn_resumeOpt (s : S) (r : Option Nat) : (resumeOpt s r).sco.done = s.sco.done := by
  unfold resumeOpt; (try dsimp only); (repeat' split) <;> simp
@[simp] theorem dn_chanClose1 (s : S) (i c : Nat) (ch : Chan) (a : Aft) : (chanClose1 s i c ch a).sco.done = s.sco.done := by
  unfold chanClose1; (try dsimp only); (repeat' split) <;> simp
@[simp] theorem dn_chanClose (s : S) (i c : Nat) : (chanClose s i c).sco.done = s.sco.done := by
  unfold chanClose; (try dsimp only); (repeat' split) <;> simp
@[simp] theorem dn_finishLock (s : S) (i m : Nat) (rd : Bool) (dl : Int) (b : Blk) : (finishLock s i m rd dl b).sco.done = s.sco.done := by
  unfold finishLock; (try dsimp only); (repeat' split) <;> simp
@[simp] theorem dn_muLock (s : S) (i m : Nat) (dl : Int) : (muLock s i m dl).sco.done = s.sco.done := by
  unfold muLock; (try dsimp only); (repeat' split) <;> simp
@[simp] theorem dn_muRdlock (s : S) (i m : Nat) (dl : Int) : (muRdlock s i m dl).sco.done = s.sco.done := by
  unfold muRdlock; (try dsimp only); (repeat' split) <;> simp
@[simp] theorem dn_muUnlock (s : S) (i m : Nat) : (muUnlock s i m).sco.done = s.sco.done := by
  unfold muUnlock; (try dsimp only); (repeat' split) <;> simp
@[simp] theorem dn_wgDone (s : S) (i w : Nat) : (wgDone s i w).sco.done = s.sco.done := by
  unfold wgDone; (try dsimp only); (repeat' split) <;> simp
@[simp] theorem dn_wgWait (s : S) (i w : Nat) (dl : Int) : (wgWait s i w dl).sco.done = s.sco.done := by
  unfold wgWait; (try dsimp only); (repeat' split) <;> simp
@[simp] theorem dn_cvSignal (s : S) (i v : Nat) : (cvSignal s i v).sco.done = s.sco.done := by
  unfold cvSignal; (try dsimp only); (repeat' split) <;> simp
@[simp] theorem dn_cvBcast (s : S) (i v : Nat) : (cvBcast s i v).sco.done = s.sco.done := by
  unfold cvBcast; (try dsimp only); (repeat' split) <;> simp
@[simp] theorem dn_cvEnq (s : S) (i v : Nat) (dl : Int) : (cvEnq s i v dl).sco.done = s.sco.done := by
  unfold cvEnq; (try dsimp only); (repeat' split) <;> simp
@[simp] theorem dn_cvWait (s : S) (i v m : Nat) (dl : Int) : (cvWait s i v m dl).sco.done = s.sco.done := by
  unfold cvWait; (try dsimp only); (repeat' split) <;> simp
@[simp] theorem dn_doSleep (s : S) (i : Nat) (dl : Int) : (doSleep s i dl).sco.done = s.sco.done := by
  unfold doSleep; (try dsimp only); (repeat' split) <;> simp
@[simp] theorem dn_doJoin (s : S) (i id : Nat) (dl : Int) : (doJoin s i id dl).sco.done = s.sco.done := by
  unfold doJoin; (try dsimp only); (repeat' split) <;> simp
@[simp] theorem dn_doSuspend (s : S) (i : Nat) (dl : Int) : (doSuspend s i dl).sco.done = s.sco.done := by
  unfold doSuspend; (try dsimp only); (repeat' split) <;> simp
@[simp] theorem dn_doResume (s : S) (i id : Nat) : (doResume s i id).sco.done = s.sco.done := by
  unfold doResume; (try dsimp only); (repeat' split) <;> simp
@[simp] theorem dn_doCancel (s : S) (i id : Nat) (dl : Int) : (doCancel s i id dl).sco.done = s.sco.done := by
  unfold doCancel; (try dsimp only); (repeat' split) <;> simp
@[simp] theorem dn_doSigWait (s : S) (i : Nat) (dl : Int) : (doSigWait s i dl).sco.done = s.sco.done := by
  unfold doSigWait; (try dsimp only); (repeat' split) <;> simp
@[simp] theorem dn_doWait (s : S) (i fd : Nat) (wr : Bool) (dl : Int) : (doWait s i fd wr dl).sco.done = s.sco.done := by
  unfold doWait; (try dsimp only); (repeat' split) <;> simp
@[simp] theorem dn_doGenYield (s : S) (i : Nat) (m : Msg) (dl : Int) : (doGenYield s i m dl).sco.done = s.sco.done := by
  unfold doGenYield; (try dsimp only); (repeat' split) <;> simp
@[simp] theorem dn_doRelock (s : S) (i m : Nat) : (doRelock s i m).sco.done = s.sco.done := by
  unfold doRelock; (try dsimp only); (repeat' split) <;> simp
@[simp] theorem dn_wakeAll (s : S) (q : List Nat) : (wakeAll s q).sco.done = s.sco.done := by
  induction q generalizing s with
  | nil => rfl
  | cons n q ih => simp [wakeAll, ih]
@[simp] theorem dn_mResume (s : S)  : (mResume s).sco.done = s.sco.done := by
  unfold mResume; (try dsimp only); (repeat' split) <;> simp
@[simp] theorem dn_mIo (s : S)  : (mIo s).sco.done = s.sco.done := by
  unfold mIo; (try dsimp only); (repeat' split) <;> simp
@[simp] theorem dn_mEvent (s : S) (e : Nat × Bool × Bool) : (mEvent s e).sco.done = s.sco.done := by
  unfold mEvent; (try dsimp only); (repeat' split) <;> simp
@[simp] theorem dn_mEvents (s : S) (q : List (Nat × Bool × Bool)) : (mEvents s q).sco.done = s.sco.done := by
  induction q generalizing s with
  | nil => rfl
  | cons n q ih => simp [mEvents, ih]
@[simp] theorem dn_mSig (s : S)  : (mSig s).sco.done = s.sco.done := by
  unfold mSig; (try dsimp only); (repeat' split) <;> simp
@[simp] theorem dn_mDl (s : S)  : (mDl s).sco.done = s.sco.done := by
  unfold mDl; (try dsimp only); (repeat' split) <;> simp
@[simp] theorem dn_chanRecv (s : S) (i c : Nat) (t : Bool) (dl : Int) : (chanRecv s i c t dl).sco.done = s.sco.done := by
  unfold chanRecv; dsimp only; (repeat' split) <;> first | (rename_i h; simp [recvNow_sco h]; done) | simp
@[simp] theorem dn_chanSelect (s : S) (i : Nat) (cs : List Nat) (dl : Int) (t : Bool) : (chanSelect s i cs dl t).sco.done = s.sco.done := by
  unfold chanSelect; dsimp only; (repeat' split) <;> first | (rename_i h; simp [recvNow_sco h]; done) | simp
@[simp] theorem dn_exitNotify (s : S) (i : Nat) (a : Bool) : (exitNotify s i a).sco.done = s.sco.done := by
  unfold exitNotify; dsimp only; (repeat' split) <;> simp
@[simp] theorem dn_doExit (s : S) (i : Nat) (a : Bool) : (doExit s i a).sco.done = s.sco.done := by
  unfold doExit; (repeat' split) <;> simp
@[simp] theorem dn_afterBlk (s : S) (i : Nat) (b : Blk) : (afterBlk s i b).sco.done = s.sco.done := by
  cases b <;> simp only [afterBlk] <;> (repeat' split) <;> simp
@[simp] theorem dn_doRet (s : S) (i : Nat) (v : Int) : (doRet s i v).sco.done = s.sco.done := by
  unfold doRet; split <;> simp


theorem dn_doCall (s : S) (i : Nat) (c : Call) : (doCall s i c).sco.done = s.sco.done := by
  cases c <;> simp only [doCall] <;> (repeat' split) <;> simp

/-- past the point of no return: no longer known to others -/
def Pc.gone : Pc → Bool
  | .dead => true
  | .yck _ a | .yld _ a | .go a => a.exiting
  | _ => false

theorem tauCo_gone {s s' : S} {i : Nat} (hs : tauCo s i = some s') (hp : (s'.co i).pc.gone = true) :
    (s.co i).pc.gone = true ∨ ∃ a, s' = exitNotify s i a := by
  unfold tauCo at hs
  split at hs
  · cases hs
  · cases hs
  · cases hs
  · cases hs; unfold doRet at hp; split at hp
    · rw [pc_setPc] at hp; cases hp
    · simp [upd_co, Pc.gone] at hp
  · rename_i e; (repeat' split at hs) <;> cases hs
    · rw [pc_setPc] at hp; cases hp
    · rw [pc_setPc] at hp; rw [e]; exact .inl hp
    · rw [pc_coyield] at hp; rw [e]; exact .inl hp
  · rename_i e; cases hs; rw [pc_coyield] at hp; rw [e]; exact .inl hp
  · rename_i a e; cases hs
    cases a with
    | ret v => simp only [doAft] at hp; rw [pc_retv] at hp; cases hp
    | condEnq =>
      simp only [doAft] at hp
      split at hp
      · unfold cvEnq at hp; dsimp only at hp; rw [pc_copause] at hp; cases hp
      · simp only [e] at hp; cases hp
    | genRel x y => rw [e]; exact .inl rfl
    | exitTail x y => rw [e]; exact .inl rfl
    | fin x => rw [e]; exact .inl rfl
  · cases hs; rw [pc_retv] at hp; cases hp
  · rename_i b' e; cases hs
    cases b' <;> simp only [afterBlk] at hp <;> (repeat' split at hp) <;> first
      | (rw [pc_retv] at hp; cases hp; done) | (rw [pc_setPc] at hp; cases hp; done)
  · rename_i e; split at hs <;> cases hs
    · unfold doCancel at hp; dsimp only at hp; (repeat' split at hp)
      · rw [pc_retv] at hp; cases hp
      · rw [pc_retv] at hp; cases hp
      · rw [pc_scoResume, pc_setPc] at hp; cases hp
      · rw [pc_copause] at hp; cases hp
    · simp only [e] at hp; cases hp
  · rename_i e; split at hs <;> cases hs
    · unfold doRelock at hp; (repeat' split at hp)
      · rw [pc_retv] at hp; cases hp
      · rw [pc_setPc] at hp; cases hp
      · rw [pc_setPc] at hp; cases hp
      · unfold finishLock at hp; dsimp only at hp; rw [pc_copause] at hp; cases hp
    · simp only [e] at hp; cases hp
  · cases hs; rw [pc_retv] at hp; cases hp
  · rename_i a e; cases hs
    unfold doExit at hp ⊢
    split at hp
    · split at hp
      · simp [upd_co, e, Pc.gone] at hp
      · exact .inr ⟨a, by simp_all⟩
    · exact .inr ⟨a, by simp_all⟩

theorem tauCo_done {s s' : S} {i : Nat} (hs : tauCo s i = some s') :
    (s'.sco.done = s.sco.done ∧ (s'.co i).pc ≠ .dead) ∨ (s'.sco.done = s.sco.cur.toList ++ s.sco.done ∧ (s'.co i).pc = .dead) := by
  unfold tauCo at hs
  split at hs
  · cases hs
  · cases hs
  · cases hs
  · cases hs; refine .inl ⟨by simp, ?_⟩; unfold doRet; split
    · rw [pc_setPc]; simp
    · simp [upd_co]
  · rename_i e; (repeat' split at hs) <;> cases hs
    · exact .inl ⟨rfl, by rw [pc_setPc]; simp⟩
    · exact .inl ⟨rfl, by rw [pc_setPc]; simp⟩
    · exact .inl ⟨by simp, by rw [pc_coyield]; simp⟩
  · rename_i e; cases hs; exact .inl ⟨by simp, by rw [pc_coyield]; simp⟩
  · rename_i a e; cases hs
    cases a with
    | ret v => simp only [doAft]; exact .inl ⟨by simp, by rw [pc_retv]; simp⟩
    | condEnq =>
      simp only [doAft]
      split
      · exact .inl ⟨by simp, by unfold cvEnq; dsimp only; rw [pc_copause]; simp⟩
      · exact .inl ⟨by simp, by simp [e]⟩
    | genRel x y => simp only [doAft]; split
                    · exact .inl ⟨by simp, by rw [pc_setPc]; simp⟩
                    · exact .inl ⟨by simp, by simp [e]⟩
    | exitTail x y => simp only [doAft]; split
                      · obtain ⟨k, h⟩ := pc_yfsr s i 0 (.fin y); exact .inl ⟨by simp, by rw [h]; simp⟩
                      · exact .inl ⟨by simp, by rw [pc_setPc]; simp⟩
    | fin x => simp only [doAft, doFin]; refine .inr ⟨?_, by rw [pc_setPc]⟩; split <;> simp
  · cases hs; exact .inl ⟨by simp, by rw [pc_retv]; simp⟩
  · rename_i b' e; cases hs
    refine .inl ⟨by simp, ?_⟩
    cases b' <;> simp only [afterBlk] <;> (repeat' split) <;> first
      | (rw [pc_retv]; simp; done) | (rw [pc_setPc]; simp; done)
  · rename_i e; split at hs <;> cases hs
    · refine .inl ⟨by simp, ?_⟩
      unfold doCancel; dsimp only; (repeat' split)
      · rw [pc_retv]; simp
      · rw [pc_retv]; simp
      · rw [pc_scoResume, pc_setPc]; simp
      · rw [pc_copause]; simp
    · exact .inl ⟨rfl, by simp [e]⟩
  · rename_i e; split at hs <;> cases hs
    · refine .inl ⟨by simp, ?_⟩
      unfold doRelock; (repeat' split)
      · rw [pc_retv]; simp
      · rw [pc_setPc]; simp
      · rw [pc_setPc]; simp
      · unfold finishLock; dsimp only; rw [pc_copause]; simp
    · exact .inl ⟨rfl, by simp [e]⟩
  · cases hs; exact .inl ⟨by simp, by rw [pc_retv]; simp⟩
  · rename_i a e; cases hs
    refine .inl ⟨by simp, ?_⟩
    unfold doExit exitNotify chanClose1; dsimp only
    (repeat' split) <;> simp [upd_co, setPc, e, coyield, yfsr]

theorem doCall_gone {s : S} {i : Nat} (c : Call) (hw : i ≤ s.sco.nextId) (hp : (s.co i).pc.gone = false) : ((doCall s i c).co i).pc.gone = false := by
  have hne : i ≠ s.sco.nextId + 1 := by omega
  cases c
  case start => simp [doCall, doStart, upd_co, hne, Pc.gone]
  case genStart => simp [doCall, doGenStart, doStart, upd_co, hne, Pc.gone]
  all_goals simp only [doCall]
  all_goals try (simp [retv, setPc, upd_co, Pc.gone, coyield, Aft.exiting]; done)
  case send => unfold chanSend sendRest; dsimp only; (repeat' split) <;> first | (rw [pc_retv]; rfl) | (rw [pc_copause]; rfl) | (simpa using hp) | (rw [pc_scoResume, pc_retv]; rfl) | (simp [retv, setPc, upd_co, scoResume, note, schedResume]; rfl) | (simp; rfl)
  case recv => unfold chanRecv; dsimp only; (repeat' split) <;> first | (rw [pc_retv]; rfl) | (rw [pc_copause]; rfl) | (rw [pc_resumeOpt, pc_retv]; rfl) | (simpa using hp)
  case tryrecv => unfold chanRecv; dsimp only; (repeat' split) <;> first | (rw [pc_retv]; rfl) | (rw [pc_copause]; rfl) | (rw [pc_resumeOpt, pc_retv]; rfl) | (simpa using hp)
  case select => unfold chanSelect; dsimp only; (repeat' split) <;> first | (rw [pc_retv]; rfl) | (rw [pc_copause]; rfl) | (rw [pc_resumeOpt, pc_setPc]; rfl) | (rw [pc_setPc]; rfl) | (simpa using hp)
  case tryselect => unfold chanSelect; dsimp only; (repeat' split) <;> first | (rw [pc_retv]; rfl) | (rw [pc_copause]; rfl) | (rw [pc_resumeOpt, pc_setPc]; rfl) | (rw [pc_setPc]; rfl) | (simpa using hp)
  case genYield => unfold doGenYield chanSend sendRest; dsimp only; (repeat' split) <;> first | (rw [pc_retv]; rfl) | (rw [pc_copause]; rfl) | (simpa using hp) | (rw [pc_scoResume, pc_retv]; rfl) | (simp [retv, setPc, upd_co, scoResume, note, schedResume]; rfl) | (simp; rfl)
  case bcast => unfold chanBcast; dsimp only; (repeat' split) <;> first | (rw [pc_retv]; rfl) | (simpa using hp) | (rw [(pc_yfsr ..).choose_spec]; rfl)
  case close => unfold chanClose chanClose1; dsimp only; (repeat' split) <;> first | (rw [pc_retv]; rfl) | (rw [pc_setPc]; rfl) | (rw [(pc_yfsr ..).choose_spec]; rfl) | (simpa using hp)
  case chCase => unfold chanCase; (repeat' split) <;> first | (rw [pc_retv]; rfl) | (simpa using hp)
  case chRetain => (repeat' split) <;> first | (rw [pc_retv]; rfl) | (simpa using hp)
  case sleep => unfold doSleep; (repeat' split) <;> first | (rw [pc_retv]; rfl) | (rw [pc_copause]; rfl)
  case join => unfold doJoin; dsimp only; (repeat' split) <;> first | (rw [pc_retv]; rfl) | (rw [pc_copause]; rfl)
  case suspend => exact (by unfold doSuspend; dsimp only; rw [pc_copause]; rfl)
  case resume => unfold doResume; (repeat' split) <;> first | (rw [pc_retv]; rfl) | (rw [pc_scoResume, pc_retv]; rfl)
  case lock => unfold muLock finishLock; dsimp only; (repeat' split) <;> first | (rw [pc_retv]; rfl) | (rw [pc_copause]; rfl)
  case rdlock => unfold muRdlock finishLock; dsimp only; (repeat' split) <;> first | (rw [pc_retv]; rfl) | (rw [pc_copause]; rfl)
  case trylock => unfold muTrylock; (repeat' split) <;> (rw [pc_retv]; rfl)
  case tryrdlock => unfold muTryrdlock; (repeat' split) <;> (rw [pc_retv]; rfl)
  case unlock => unfold muUnlock; (repeat' split) <;> first | (rw [pc_coyield]; rfl) | (rw [(pc_yfsr ..).choose_spec]; rfl)
  case wgAdd => unfold wgAdd; dsimp only; (repeat' split) <;> first | (rw [pc_retv]; rfl) | (simpa using hp)
  case wgDone => unfold wgDone; dsimp only; (repeat' split) <;> first | (rw [pc_retv]; rfl) | (rw [pc_scoResume, pc_retv]; rfl) | (rw [(pc_yfsr ..).choose_spec]; rfl)
  case wgWait => unfold wgWait; dsimp only; (repeat' split) <;> first | (rw [pc_retv]; rfl) | (rw [pc_copause]; rfl) | (rw [pc_coyield]; rfl)
  case cvSignal => unfold cvSignal; (repeat' split) <;> first | (rw [pc_retv]; rfl) | (rw [pc_scoResume, pc_retv]; rfl)
  case cvBcast => unfold cvBcast; rw [(pc_yfsr ..).choose_spec]; rfl
  case cvWait => unfold cvWait cvEnq; dsimp only; (repeat' split) <;> first | (rw [pc_retv]; rfl) | (rw [pc_copause]; rfl) | (rw [(pc_yfsr ..).choose_spec]; rfl)
  case cpop => unfold doCpop; (repeat' split) <;> first | (rw [pc_retv]; rfl) | (simpa using hp)
  case sigWatch => unfold doSigWatch; (repeat' split) <;> (rw [pc_retv]; rfl)
  case sigUnwatch => unfold doSigUnwatch; (repeat' split) <;> (rw [pc_retv]; rfl)
  case sigWait => unfold doSigWait; dsimp only; (repeat' split) <;> first | (rw [pc_retv]; rfl) | (rw [pc_copause]; rfl)
  case wait => unfold doWait; dsimp only; rw [pc_copause]; rfl
  case none => exact hp

theorem tauMain_done {s s' : S} (hs : tauMain s = some s') : s'.sco.done = s.sco.done := by
  unfold tauMain at hs; (repeat' split at hs) <;> cases hs <;> simp

structure InvD (s : S) : Prop where
  dd : ∀ j, j ∈ s.sco.done ↔ (s.co j).pc = .dead
  ga : ∀ j, (s.co j).pc.gone = true → j ∉ s.all

theorem InvD.step {ok} {s s' : S} {a : Act} (h : InvD s) (r : Reach ok s) (hs : Rt.step s a = some s') : InvD s' := by
  have hA := reach_invA r
  have hA' := hA.step hs
  have hw := reach_scoWF r
  obtain ⟨es, he1, he2⟩ := step_rl hs
  -- a coroutine that is not running
  have other : ∀ j, s.sco.cur ≠ some j → (∀ e, e ∈ s'.sco.done ↔ e ∈ s.sco.done ∨ (s.sco.cur = some e ∧ e ∈ s'.sco.done)) →
      ((j ∈ s'.sco.done ↔ (s'.co j).pc = .dead) ∧ ((s'.co j).pc.gone = true → j ∉ s'.all)) := by
    intro j hc hd
    by_cases hn : (a = .call .start ∨ a = .call .genStart) ∧ j = s.sco.nextId + 1
    · obtain ⟨ha, rfl⟩ := hn
      have hnew : (s'.co (s.sco.nextId + 1)).pc = .user := by
        obtain ⟨i, g, _, e1, _⟩ := start_new ha hs
        rw [e1, (newCo_pc s i g).1]
      rw [hnew]
      refine ⟨⟨fun hm => ?_, fun e => by cases e⟩, fun e => by cases e⟩
      exfalso
      rcases (hd _).mp hm with hm | ⟨hm, _⟩
      · have := (h.dd _).mp hm
        rw [(reach_invF r).fresh _ (by omega)] at this; cases this
      · exact hc hm
    · have hm := step_other (reach_invL r) (reach_invC r) hs hc (fun ha e => hn ⟨ha, e⟩) (((reach_invF r).cf j).evU)
      rw [hm.pc.1]
      refine ⟨⟨fun hx => ?_, fun hx => (hd j).mpr (.inl ((h.dd j).mpr hx))⟩, fun hx => ?_⟩
      · rcases (hd j).mp hx with hx | ⟨hx, _⟩
        · exact (h.dd j).mp hx
        · exact absurd hx hc
      · have := h.ga j hx
        rw [hA'.al, he1]; rw [hA.al] at this
        cases he2 with
        | start c i _ _ hcc =>
          simp only [List.cons_append, List.nil_append, live, List.mem_cons, not_or]
          exact ⟨fun e => hn ⟨by rcases hcc with rfl | rfl <;> simp, e⟩, this⟩
        | tau i hi es ht => cases ht <;> simp [live] <;> simp [this]
        | _ => exact this
  -- the step
  have all : ∀ j, (j ∈ s'.sco.done ↔ (s'.co j).pc = .dead) ∧ ((s'.co j).pc.gone = true → j ∉ s'.all) := by
    have same : s'.sco.done = s.sco.done → ∀ e, e ∈ s'.sco.done ↔ e ∈ s.sco.done ∨ (s.sco.cur = some e ∧ e ∈ s'.sco.done) := by
      intro hh e; rw [hh]; exact ⟨.inl, fun h => h.elim id (·.2)⟩
    have live_c : ∀ i, s.sco.cur = some i → i ∉ s.sco.done := by
      intro i hc hm
      have := hw.nodup; simp only [Sco.everybody, hc] at this
      simp [hm] at this
    intro j
    have hs0 := hs
    unfold Rt.step at hs
    split at hs
    · cases hs
    cases a with
    | call c =>
      simp only at hs
      split at hs
      · cases hs
      rename_i i hc
      split at hs <;> cases hs
      rename_i hp
      have hdn := dn_doCall (upd (note s (.call i c)) i (fun k => { k with call := c })) i c
      by_cases hj : s.sco.cur = some j
      · rw [hc] at hj; cases hj
        have hg := doCall_gone (s := upd (note s (.call j c)) j (fun k => { k with call := c })) (i := j) c (cur_le hw hc).2 (by simp [upd_co, hp.1, Pc.gone])
        refine ⟨?_, fun hx => by rw [hg] at hx; cases hx⟩
        rw [hdn]
        refine ⟨fun hx => absurd hx (live_c _ hc), fun hx => ?_⟩
        rw [hx] at hg; cases hg
      · exact other j hj (same hdn)
    | tau =>
      simp only at hs
      split at hs
      · rename_i i hc
        by_cases hj : j = i
        · subst hj
          refine ⟨?_, ?_⟩
          · rcases tauCo_done hs with ⟨h1, h2⟩ | ⟨h1, h2⟩
            · rw [h1]; exact ⟨fun hx => absurd hx (live_c _ hc), fun hx => absurd hx h2⟩
            · rw [h1, hc]; simp [h2]
          · intro hx
            rcases tauCo_gone hs hx with hx | ⟨x, hx⟩
            · have := h.ga j hx
              rw [hA'.al, he1]; rw [hA.al] at this
              cases he2 with
              | tau i hi es ht => cases ht <;> simp [live] <;> simp [this]
              | halt hc' => rw [hc] at hc'; cases hc'
              | nil => exact this
            · rw [hx, exitNotify_all]; simp
        · refine other j (by rw [hc]; simp; exact fun e => hj e.symm) ?_
          intro e
          rcases tauCo_done hs with ⟨h1, h2⟩ | ⟨h1, h2⟩
          · exact same h1 e
          · rw [h1, hc]; simp only [Option.toList, List.singleton_append, List.mem_cons, Option.some.injEq]; exact ⟨fun h => h.elim (fun h => .inr ⟨h.symm, .inl h⟩) .inl, fun h => h.elim .inr (·.2)⟩
      · rename_i hc
        exact other j (by rw [hc]; simp) (same (tauMain_done hs))
    | finish =>
      simp only at hs
      split at hs
      · cases hs
      rename_i i hc
      split at hs <;> cases hs
      by_cases hj : j = i
      · subst hj
        exact ⟨⟨fun hx => absurd hx (live_c _ hc), fun hx => by rw [pc_setPc] at hx; cases hx⟩, fun hx => by rw [pc_setPc] at hx; cases hx⟩
      · exact other j (by rw [hc]; simp; exact fun e => hj e.symm) (same rfl)
    | submit o =>
      simp only at hs
      split at hs
      · cases hs
      rename_i i hc
      split at hs
      · rename_i hwt
        split at hs <;> cases hs
        · by_cases hj : j = i
          · subst hj
            refine ⟨⟨fun hx => absurd (by simpa using hx) (live_c _ hc), fun hx => by simp [setPc, upd_co] at hx⟩, fun hx => by simp [setPc, upd_co, Pc.gone] at hx⟩
          · exact other j (by rw [hc]; simp; exact fun e => hj e.symm) (same (by simp))
        · by_cases hj : j = i
          · subst hj
            refine ⟨⟨fun hx => absurd (by simpa using hx) (live_c _ hc), fun hx => by simp [hwt] at hx⟩, fun hx => by simp [hwt, Pc.gone] at hx⟩
          · exact other j (by rw [hc]; simp; exact fun e => hj e.symm) (same (by simp))
      · cases hs
    | events evs =>
      simp only at hs
      split at hs
      · rename_i h1; cases hs
        refine other j (by rw [h1.1]; simp) (same ?_)
        show (if s.nevwaiters > 0 then mEvents s evs else s).sco.done = _
        split <;> simp
      · cases hs
    | clock t => simp only at hs; split at hs <;> cases hs; exact ⟨h.dd j, h.ga j⟩
    | signal n => simp only at hs; (repeat' split at hs) <;> cases hs <;> exact ⟨h.dd j, h.ga j⟩
    | wdone k => simp only at hs; split at hs <;> cases hs; exact ⟨h.dd j, h.ga j⟩
  exact ⟨fun j => (all j).1, fun j => (all j).2⟩

theorem reach_invD {ok} {s : S} (r : Reach ok s) : InvD s := by
  induction r with
  | init a e =>
    have : ∀ j, ((init a e).co j).pc = .user := by intro j; unfold init; dsimp only; split <;> rfl
    refine ⟨fun j => ?_, fun j h => ?_⟩
    · rw [this]; simp [init]
    · rw [this] at h; cases h
  | step r a hok hs ih => exact ih.step r hs

/-- a coroutine that is known is somewhere -/
theorem live_place {ok} {s : S} (r : Reach ok s) {k : Nat} (h : k ∈ live s.log) : k ∉ s.sco.done := by
  intro hd
  have hD := reach_invD r
  have := hD.ga k (by rw [(hD.dd k).mp hd]; rfl)
  rw [all_live r] at this; exact this h

theorem cur_not_dead {ok} {s : S} (r : Reach ok s) {i : Nat} (h : s.sco.cur = some i) : (s.co i).pc ≠ .dead := by
  intro hp
  have hm := ((reach_invD r).dd i).mpr hp
  have := (reach_scoWF r).nodup; simp only [Sco.everybody, h] at this
  simp [hm] at this

theorem place_of {x : Sco} (hw : Sco.WF x) {k : Nat} (h1 : 1 ≤ k) (h2 : k ≤ x.nextId) : k ∈ x.done ∨ x.cur = some k ∨ (k ∈ x.runners ∨ k ∈ x.yielders) ∨ k ∈ x.paused := by
  have := hw.perm.mem_iff.2 (List.mem_range'_1.mpr ⟨h1, by omega⟩ : k ∈ List.range' 1 x.nextId)
  simp only [Sco.everybody, List.mem_append, Option.mem_toList] at this
  rcases this with (((h | h) | h) | h) | h
  · exact .inr (.inl h)
  · exact .inr (.inr (.inl (.inl h)))
  · exact .inr (.inr (.inl (.inr h)))
  · exact .inr (.inr (.inr h))
  · exact .inl h

theorem doCall_main (s : S) (i : Nat) (c : Call) : (doCall s i c).main = s.main := by
  cases c <;> simp only [doCall] <;> (repeat' split) <;> simp
@[simp] theorem afterBlk_main (s : S) (i : Nat) (b : Blk) : (afterBlk s i b).main = s.main := by
  cases b <;> simp only [afterBlk] <;> (repeat' split) <;> simp
theorem tauCo_main {s s' : S} {i : Nat} (hs : tauCo s i = some s') : s'.main = s.main := by
  unfold tauCo at hs
  (repeat' split at hs) <;> first | (cases hs; done) | (cases hs; rfl) | (cases hs; simp; done)

structure InvH (s : S) : Prop where
  h1 : .halt ∈ s.log → s.main = .done
  h2 : s.main = .done → .halt ∈ s.log ∧ s.sco.active = false

theorem InvH.step {s s' : S} {a : Act} (h : InvH s) (hs : Rt.step s a = some s') : InvH s' := by
  have hnd : s.main ≠ .done := by
    intro e; unfold Rt.step at hs; rw [if_pos (.inr (.inr e))] at hs; cases hs
  have hnh : .halt ∉ s.log := fun e => hnd (h.h1 e)
  obtain ⟨es, he1, he2⟩ := step_rl hs
  have mem : Ev.halt ∈ s'.log ↔ .halt ∈ es := by
    have e1 : Ev.halt ∈ s'.log ↔ .halt ∈ rl s' := by unfold rl; simp [List.mem_filter, Ev.rare]
    rw [e1, he1, List.mem_append]
    have e2 : Ev.halt ∉ rl s := by unfold rl; simp [List.mem_filter, hnh]
    simp [e2]
  have key : s'.main = s.main → Ev.halt ∉ es → InvH s' := by
    intro hm hn
    exact ⟨fun hx => absurd (mem.mp hx) hn, fun hx => absurd (hm ▸ hx) hnd⟩
  cases a with
  | call c =>
    refine key ?_ ?_
    · unfold Rt.step at hs
      split at hs
      · cases hs
      simp only at hs
      split at hs
      · cases hs
      split at hs <;> cases hs
      rw [doCall_main]; rfl
    · cases he2 <;> simp
  | tau =>
    unfold Rt.step at hs
    split at hs
    · cases hs
    simp only at hs
    split at hs
    · rename_i i hc
      refine key (tauCo_main hs) ?_
      cases he2 with
      | tau i hi es ht => cases ht <;> simp
      | halt hc' => rw [hc] at hc'; cases hc'
      | nil => simp
    · rename_i hc
      unfold tauMain at hs
      have ev : ∀ {m : MPc} {t : S}, m ≠ .done → t.log = s.log → s' = { t with main := m } → InvH s' := by
        intro m t hm hl e
        subst e
        exact ⟨fun hx => absurd (show Ev.halt ∈ s.log from hl ▸ hx) hnh, fun hx => absurd hx hm⟩
      split at hs
      · split at hs
        · rename_i ha; cases hs
          exact ⟨fun _ => rfl, fun _ => ⟨List.mem_cons_self, ha⟩⟩
        · split at hs <;> cases hs
          · exact ev (m := .io) (t := mResume s) (by simp) (by simp) rfl
          · exact ev (m := .rc) (t := s) (by simp) (by simp) rfl
      · cases hs; exact ev (m := .ev) (t := mIo s) (by simp) (by simp) rfl
      · cases hs
      · cases hs
        refine ⟨fun hx => ?_, fun hx => by cases hx⟩
        exfalso
        obtain ⟨es', h1, h2⟩ := mSig_adds s
        have hx' : Ev.halt ∈ (mSig s).log := hx
        rw [h1, List.mem_append] at hx'
        rcases hx' with hx' | hx'
        · have := h2 _ hx'; simp [Ev.kind] at this
        · exact hnh hx'
      · cases hs; exact ev (m := .rc) (t := mDl s) (by simp) (by simp) rfl
      · cases hs; exact ev (m := .go) (t := mRc s) (by simp) (by simp) rfl
      · cases hs; exact ev (m := .top) (t := { s with sco := s.sco.resume0 }) (by simp) (by simp) rfl
      · cases hs
  | finish =>
    refine key ?_ (by cases he2; simp)
    unfold Rt.step at hs
    split at hs
    · cases hs
    simp only at hs
    split at hs
    · cases hs
    split at hs <;> cases hs
    rfl
  | submit o =>
    refine key ?_ (by cases he2; simp)
    unfold Rt.step at hs
    split at hs
    · cases hs
    simp only at hs
    split at hs
    · cases hs
    (repeat' split at hs) <;> cases hs <;> rfl
  | events evs =>
    have hn : Ev.halt ∉ es := by cases he2; simp
    refine ⟨fun hx => absurd (mem.mp hx) hn, fun hx => ?_⟩
    unfold Rt.step at hs
    split at hs
    · cases hs
    simp only at hs
    split at hs <;> cases hs
    cases hx
  | clock t =>
    refine key ?_ (by cases he2; simp)
    unfold Rt.step at hs
    split at hs
    · cases hs
    simp only at hs
    split at hs <;> cases hs
    rfl
  | signal n =>
    refine key ?_ (by cases he2 <;> simp)
    unfold Rt.step at hs
    split at hs
    · cases hs
    simp only at hs
    (repeat' split at hs) <;> cases hs <;> rfl
  | wdone k =>
    refine key ?_ (by cases he2 <;> simp)
    unfold Rt.step at hs
    split at hs
    · cases hs
    simp only at hs
    split at hs <;> cases hs
    rfl

theorem reach_invH {ok} {s : S} (r : Reach ok s) : InvH s := by
  induction r with
  | init a e => exact ⟨by simp [init], by simp [init]⟩
  | step r a hok hs ih => exact ih.step hs

/-- the main loop ends only when nobody is left -/
theorem main_done {ok} {s : S} (r : Reach ok s) (h : .halt ∈ s.log) : s.sco.cur = none ∧ s.sco.runners = [] ∧ s.sco.yielders = [] ∧ s.sco.paused = [] := by
  have hH := reach_invH r
  have hw := reach_scoWF r
  have := (hH.h2 (hH.h1 h)).2
  unfold Sco.active at this
  simp only [gt_iff_lt, decide_eq_false_iff_not, Nat.not_lt, Nat.le_zero] at this
  have h1 : s.sco.cur = none := by
    cases hc : s.sco.cur with
    | none => rfl
    | some i => rw [hc] at this; simp at this
  refine ⟨h1, ?_, ?_, ?_⟩ <;> apply List.eq_nil_of_length_eq_zero
  · rw [← hw.nr]; omega
  · rw [← hw.ny]; omega
  · rw [← hw.np]; omega

end Neco.Rt
