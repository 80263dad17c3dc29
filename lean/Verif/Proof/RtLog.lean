import Verif.Proof.RtFlag2
/-!
# Which operations add which events to the history
-/
namespace Neco.Rt
open Neco.Err

/-- the events that only few places produce -/
def Ev.rare : Ev → Bool
  | .call _ _ | .ret _ _ _ _ | .start _ _ | .exit _ | .clean _ _ | .cancel _ _ | .kill _ _ | .wdone _ | .sig _ | .halt => true
  | _ => false

/-- the rare events of the history -/
def rl (s : S) : List Ev := s.log.filter Ev.rare

theorem rl_of {s t : S} (h : t.log = s.log) : rl t = rl s := by unfold rl; rw [h]
@[simp] theorem rl_note (s : S) (e : Ev) : rl (note s e) = if e.rare = true then e :: rl s else rl s := by
  unfold rl note; simp [List.filter_cons]
@[simp] theorem rl_noteR (s : S) (e : Ev) : rl { s with log := e :: s.log } = if e.rare = true then e :: rl s else rl s := rl_note s e

macro "rl_tac" : tactic => `(tactic| (first | rfl | (simp [Ev.rare]; done) | exact rl_of (by simp) | (simp [Ev.rare]; exact rl_of (by simp)) | (simp [Ev.rare]; rfl)))

@[simp] theorem rl_upd (s : S) (i : Nat) (f : Co → Co) : rl (upd s i f) = rl s := rl_of (by simp)
@[simp] theorem rl_setPc (s : S) (i : Nat) (p : Pc) : rl (setPc s i p) = rl s := rl_of (by simp)
@[simp] theorem rl_rm (s : S) (n : Node) : rl (rm s n) = rl s := rl_of (by simp)
@[simp] theorem rl_setList (s : S) (L : LName) (l : List Node) : rl (setList s L l) = rl s := rl_of (by simp)
@[simp] theorem rl_push (s : S) (L : LName) (n : Node) : rl (push s L n) = rl s := rl_of (by simp)
@[simp] theorem rl_schedResume (s : S) (i : Nat) : rl (schedResume s i) = rl s := rl_of (by simp)
@[simp] theorem rl_schedAll (s : S) (L : LName) (q : List Node) : rl (schedAll s L q) = rl s := by
  induction q generalizing s with
  | nil => rfl
  | cons n q ih => simp [schedAll, ih, Ev.rare]
@[simp] theorem rl_coyield (s : S) (i n : Nat) (a : Aft) : rl (coyield s i n a) = rl s := rl_of (by simp)
@[simp] theorem rl_yfsr (s : S) (i n : Nat) (a : Aft) : rl (yfsr s i n a) = rl s := rl_of (by simp)
@[simp] theorem rl_scoResume (s : S) (i : Nat) : rl (scoResume s i) = rl s := rl_of (by simp)
@[simp] theorem rl_copause (s : S) (i : Nat) (dl : Int) (b : Blk) : rl (copause s i dl b) = rl s := rl_of (by simp)
@[simp] theorem rl_unpause (s : S) (i : Nat) : rl (unpause s i) = rl s := rl_of (by simp)
@[simp] theorem rl_dlClear (s : S) (i : Nat) : rl (dlClear s i) = rl s := rl_of (by simp)
@[simp] theorem rl_retv (s : S) (i : Nat) (v : Int) : rl (retv s i v) = rl s := rl_of (by simp)
@[simp] theorem rl_setChan (s : S) (c : Nat) (ch : Chan) : rl (setChan s c ch) = rl s := rl_of (by simp)
@[simp] theorem rl_chanRelease (s : S) (c : Nat) : rl (chanRelease s c) = rl s := rl_of (by simp)
@[simp] theorem rl_sendLoop (s : S) (c : Nat) (m : Msg) (q : List Node) : rl ((sendLoop s c m q).1) = rl s := by
  induction q generalizing s with
  | nil => simp [sendLoop]
  | cons n q ih =>
    cases n with
    | co r => simp only [sendLoop] <;> simp [ih, Ev.rare]
    | case r k =>
      simp only [sendLoop]; split
      · exact ih _
      · simp [ih, Ev.rare]; try rfl
@[simp] theorem rl_bcastLoop (s : S) (c : Nat) (m : Msg) (q : List Node) : rl ((bcastLoop s c m q).1) = rl s := by
  induction q generalizing s with
  | nil => simp [bcastLoop]
  | cons n q ih =>
    cases n with
    | co r => simp only [bcastLoop] <;> simp [ih, Ev.rare]
    | case r k =>
      simp only [bcastLoop]; split
      · exact ih _
      · simp [ih, Ev.rare]; try rfl
@[simp] theorem rl_sendTry (s : S) (c : Nat) (m : Msg) (ch : Chan) : rl (sendTry s c m ch).1 = rl s := by unfold sendTry; split <;> simp
@[simp] theorem rl_bcastTry (s : S) (c : Nat) (m : Msg) (ch : Chan) : rl (bcastTry s c m ch).1 = rl s := by unfold bcastTry; split <;> simp
@[simp] theorem rl_closeLoop (s : S) (c : Nat) (q : List Node) : rl (closeLoop s c q) = rl s := rl_of (by simp)
@[simp] theorem rl_sendRest (s : S) (i c : Nat) (m : Msg) (dl : Int) (ch : Chan) : rl (sendRest s i c m dl ch) = rl s := rl_of (by simp)
@[simp] theorem rl_chanSend (s : S) (i c : Nat) (m : Msg) (dl : Int) : rl (chanSend s i c m dl) = rl s := by unfold chanSend; (try dsimp only); (repeat' split) <;> rl_tac
@[simp] theorem rl_chanBcast (s : S) (i c : Nat) (m : Msg) : rl (chanBcast s i c m) = rl s := by unfold chanBcast; (try dsimp only); (repeat' split) <;> rl_tac
@[simp] theorem rl_resumeOpt (s : S) (r : Option Nat) : rl (resumeOpt s r) = rl s := rl_of (by simp)
@[simp] theorem rl_closeEnd (s : S) (c : Nat) : rl (closeEnd s c) = rl s := rl_of (by simp)
@[simp] theorem rl_chanClose1 (s : S) (i c : Nat) (ch : Chan) (a : Aft) : rl (chanClose1 s i c ch a) = rl s := rl_of (by simp)
@[simp] theorem rl_chanClose (s : S) (i c : Nat) : rl (chanClose s i c) = rl s := rl_of (by simp)
@[simp] theorem rl_selPush (s : S) (i k : Nat) (cs : List Nat) : rl (selPush s i k cs) = rl s := rl_of (by simp)
@[simp] theorem rl_selRm (s : S) (i : Nat) : rl (selRm s i) = rl s := rl_of (by simp)
@[simp] theorem rl_chanCase (s : S) (i c : Nat) : rl (chanCase s i c) = rl s := rl_of (by simp)
@[simp] theorem rl_setMu (s : S) (m : Nat) (x : Mu) : rl (setMu s m x) = rl s := rl_of (by simp)
@[simp] theorem rl_finishLock (s : S) (i m : Nat) (rd : Bool) (dl : Int) (b : Blk) : rl (finishLock s i m rd dl b) = rl s := rl_of (by simp)
@[simp] theorem rl_muLock (s : S) (i m : Nat) (dl : Int) : rl (muLock s i m dl) = rl s := by unfold muLock; (try dsimp only); (repeat' split) <;> rl_tac
@[simp] theorem rl_muRdlock (s : S) (i m : Nat) (dl : Int) : rl (muRdlock s i m dl) = rl s := by unfold muRdlock; (try dsimp only); (repeat' split) <;> rl_tac
@[simp] theorem rl_muTrylock (s : S) (i m : Nat) : rl (muTrylock s i m) = rl s := by unfold muTrylock; (try dsimp only); (repeat' split) <;> rl_tac
@[simp] theorem rl_muTryrdlock (s : S) (i m : Nat) : rl (muTryrdlock s i m) = rl s := by unfold muTryrdlock; (try dsimp only); (repeat' split) <;> rl_tac
@[simp] theorem rl_handoff (s : S) (m : Nat) (q : List Node) : rl (handoff s m q) = rl s := by
  induction q generalizing s with
  | nil => rfl
  | cons n q ih => simp only [handoff]; (repeat' split) <;> simp [ih, Ev.rare]
@[simp] theorem rl_fastUnlock (s : S) (m : Nat) : rl (fastUnlock s m) = rl s := by unfold fastUnlock; (try dsimp only); (repeat' split) <;> rl_tac
@[simp] theorem rl_muUnlock (s : S) (i m : Nat) : rl (muUnlock s i m) = rl s := by unfold muUnlock; (try dsimp only); (repeat' split) <;> rl_tac
@[simp] theorem rl_setWg (s : S) (w : Nat) (x : Int) : rl (setWg s w x) = rl s := rl_of (by simp)
@[simp] theorem rl_wgAdd (s : S) (i w : Nat) (d : Int) : rl (wgAdd s i w d) = rl s := rl_of (by simp)
@[simp] theorem rl_wgDone (s : S) (i w : Nat) : rl (wgDone s i w) = rl s := by unfold wgDone; (try dsimp only); (repeat' split) <;> rl_tac
@[simp] theorem rl_wgWait (s : S) (i w : Nat) (dl : Int) : rl (wgWait s i w dl) = rl s := by unfold wgWait; (try dsimp only); (repeat' split) <;> rl_tac
@[simp] theorem rl_cvSignal (s : S) (i v : Nat) : rl (cvSignal s i v) = rl s := by unfold cvSignal; (try dsimp only); (repeat' split) <;> rl_tac
@[simp] theorem rl_cvBcast (s : S) (i v : Nat) : rl (cvBcast s i v) = rl s := by unfold cvBcast; (try dsimp only); (repeat' split) <;> rl_tac
@[simp] theorem rl_cvEnq (s : S) (i v : Nat) (dl : Int) : rl (cvEnq s i v dl) = rl s := rl_of (by simp)
@[simp] theorem rl_cvWait (s : S) (i v m : Nat) (dl : Int) : rl (cvWait s i v m dl) = rl s := by unfold cvWait; (try dsimp only); (repeat' split) <;> rl_tac
@[simp] theorem rl_doSleep (s : S) (i : Nat) (dl : Int) : rl (doSleep s i dl) = rl s := rl_of (by simp)
@[simp] theorem rl_doJoin (s : S) (i id : Nat) (dl : Int) : rl (doJoin s i id dl) = rl s := by unfold doJoin; (try dsimp only); (repeat' split) <;> rl_tac
@[simp] theorem rl_doSuspend (s : S) (i : Nat) (dl : Int) : rl (doSuspend s i dl) = rl s := rl_of (by simp)
@[simp] theorem rl_doResume (s : S) (i id : Nat) : rl (doResume s i id) = rl s := by unfold doResume; (try dsimp only); (repeat' split) <;> rl_tac
@[simp] theorem rl_doSigWait (s : S) (i : Nat) (dl : Int) : rl (doSigWait s i dl) = rl s := rl_of (by simp)
@[simp] theorem rl_doSigWatch (s : S) (i n : Nat) : rl (doSigWatch s i n) = rl s := rl_of (by simp)
@[simp] theorem rl_doSigUnwatch (s : S) (i n : Nat) : rl (doSigUnwatch s i n) = rl s := rl_of (by simp)
@[simp] theorem rl_doWait (s : S) (i fd : Nat) (wr : Bool) (dl : Int) : rl (doWait s i fd wr dl) = rl s := rl_of (by simp)
@[simp] theorem rl_doGenYield (s : S) (i : Nat) (m : Msg) (dl : Int) : rl (doGenYield s i m dl) = rl s := by unfold doGenYield; (try dsimp only); (repeat' split) <;> rl_tac
@[simp] theorem rl_noteWithdraw (s : S) (i c : Nat) : rl (noteWithdraw s i c) = rl s := by unfold noteWithdraw; (try dsimp only); (repeat' split) <;> rl_tac
@[simp] theorem rl_preBlk (s : S) (i : Nat) (b : Blk) : rl (preBlk s i b) = rl s := by unfold preBlk; (try dsimp only); (repeat' split) <;> rl_tac
@[simp] theorem rl_doFin (s : S) (i : Nat) (a : Bool) : rl (doFin s i a) = rl s := rl_of (by simp)
@[simp] theorem rl_wakeAll (s : S) (q : List Nat) : rl (wakeAll s q) = rl s := rl_of (by simp)
@[simp] theorem rl_mResume (s : S)  : rl (mResume s) = rl s := rl_of (by simp)
@[simp] theorem rl_mIo (s : S)  : rl (mIo s) = rl s := rl_of (by simp)
@[simp] theorem rl_markDl (s : S) (q : List Nat) : rl (markDl s q) = rl s := rl_of (by simp)
@[simp] theorem rl_mDl (s : S)  : rl (mDl s) = rl s := rl_of (by simp)
@[simp] theorem rl_mRc (s : S)  : rl (mRc s) = rl s := rl_of (by simp)

/-- anything that leaves the log alone -/
theorem rl_with {s t : S} (h : t.log = s.log) : rl t = rl s := rl_of h

theorem rl_recvNow {s : S} {c r : Nat} {ch : Chan} {m : Msg} {o : Option Nat} {t : S} (h : recvNow s c r ch = some (m, o, t)) : rl t = rl s := by
  unfold recvNow at h
  repeat' split at h
  all_goals first
    | (simp at h; done)
    | (simp only [Option.some.injEq, Prod.mk.injEq] at h; obtain ⟨_, _, h⟩ := h; subst h; rl_tac)

@[simp] theorem rl_chanRecv (s : S) (i c : Nat) (t : Bool) (dl : Int) : rl (chanRecv s i c t dl) = rl s := by
  unfold chanRecv
  split
  · rl_tac
  · split
    · rl_tac
    · split
      · rl_tac
      · split
        · rename_i h; simp [rl_recvNow h]
        · split
          · rl_tac
          · simp only [rl_copause]; exact rl_of (by simp)

@[simp] theorem rl_chanSelect (s : S) (i : Nat) (cs : List Nat) (dl : Int) (t : Bool) : rl (chanSelect s i cs dl t) = rl s := by
  unfold chanSelect
  split
  · rl_tac
  · split
    · rl_tac
    · split
      · split
        · rl_tac
        · split
          · rl_tac
          · split
            · rename_i h; rw [rl_resumeOpt, rl_setPc, ← rl_recvNow h]; rfl
            · rl_tac
      · split
        · rl_tac
        · simp only [rl_copause]; exact rl_of (by simp)

theorem rl_doStart (s : S) (i : Nat) (g : Option Nat) : rl (doStart s i g) = .start (some i) (s.sco.nextId + 1) :: rl s := by
  unfold doStart rl; simp [Ev.rare, List.filter_cons]

/-- the rare events of a call -/
theorem rl_doCall (s : S) (i : Nat) (c : Call) : rl (doCall s i c) = (if c = .start ∨ c = .genStart then [.start (some i) (s.sco.nextId + 1)] else []) ++ rl s ∨
    (∃ h q, c = .cpop true ∧ (s.co i).cleanup = h :: q ∧ rl (doCall s i c) = .clean i h :: rl s) := by
  cases c
  case cpop e =>
    simp only [doCall, doCpop]
    split
    · left; simp; rl_tac
    · rename_i h q e'
      cases e
      · left; simp
      · right; exact ⟨h, q, rfl, e', by simp [Ev.rare]⟩
  case start => left; simp [doCall, rl_doStart]
  case genStart => left; simp [doCall, doGenStart, rl_doStart]; exact rl_of rfl
  case chRetain c =>
    left; simp only [doCall]; split
    · simp; rl_tac
    · simp
  all_goals (left; simp [doCall] <;> rl_tac)

theorem rl_afterBlk (s : S) (i : Nat) (b : Blk) (hb : b ≠ .relock) : rl (afterBlk s i b) = rl s := by
  cases b
  case relock => exact absurd rfl hb
  all_goals (simp only [afterBlk] <;> (repeat' split) <;> rl_tac)

theorem rl_schedAll' (s t : S) (L : LName) (q : List Node) (h : rl t = rl s) : rl (schedAll t L q) = rl s := by rw [rl_schedAll, h]

theorem rl_exitNotify (s : S) (i : Nat) (a : Bool) : rl (exitNotify s i a) = .exit i :: rl s := by
  unfold exitNotify
  extract_lets t1 qc t2 qj t3 sched
  have h1 : rl t3 = .exit i :: rl s := by
    simp only [t3, t2, rl_schedAll, rl_setList]; simp [t1, rl, Ev.rare, List.filter_cons]
  clear_value t3
  split
  · simp [h1]
  · split
    · exact (rl_of rfl).trans h1
    · split <;> simp [h1]

theorem rl_doAft (s : S) (i : Nat) (a : Aft) : rl (doAft s i a) = rl s := by
  cases a <;> simp only [doAft] <;> (repeat' split) <;> rl_tac

/-- the rare events of one step of the running coroutine inside the library -/
inductive TauRare (s : S) (i : Nat) : List Ev → Prop
  | nil : TauRare s i []
  | ret (v : Int) (hp : (s.co i).pc = .ret v) (hv : ¬ (v = CANCELED ∧ (s.co i).call.guarded = true ∧ (s.co i).async = true)) :
      TauRare s i [.ret i (s.co i).call v (s.co i).rdat]
  | killRet (hp : (s.co i).pc = .ret CANCELED) (hg : (s.co i).call.guarded = true) (ha : (s.co i).async = true) : TauRare s i [.kill i false]
  | killYield (n : Nat) (a : Aft) (hp : (s.co i).pc = .yck n a) (hc : (s.co i).canceled = true) (ha : (s.co i).async = true) : TauRare s i [.kill i true]
  | killRelock (hp : (s.co i).pc = .relock ∨ (s.co i).pc = .blk .relock) (hc : (s.co i).canceled = true) (ha : (s.co i).async = true) : TauRare s i [.kill i false]
  | cancel (id : Nat) (dl : Int) (hp : (s.co i).pc = .cancelTry) (hc : (s.co i).call = .cancel id dl) (hid : id ∈ s.all) (he : (s.co id).enabled = true) : TauRare s i [.cancel i id]
  | clean (h : Nat) (q : List Nat) (hp : (s.co i).pc = .exitRun true) (hq : (s.co i).cleanup = h :: q) : TauRare s i [.clean i h]
  | exit (a : Bool) (hp : (s.co i).pc = .exitRun a) (hq : a = true → (s.co i).cleanup = []) : TauRare s i [.exit i]

theorem dlCode_canceled {s : S} {i : Nat} {dl : Int} : dlCode s i dl = CANCELED ↔ (s.co i).canceled = true := by
  unfold dlCode; split
  · simp [*]
  · split <;> simp_all [TIMEDOUT, CANCELED, OK]

theorem unpause_keep (s : S) (i : Nat) : ((unpause s i).co i).canceled = (s.co i).canceled ∧ ((unpause s i).co i).async = (s.co i).async ∧ ((unpause s i).co i).deadlined = (s.co i).deadlined ∧
    ((unpause s i).co i).call = (s.co i).call ∧ ((unpause s i).co i).rdat = (s.co i).rdat ∧ ((unpause s i).co i).retIdx = (s.co i).retIdx ∧ ((unpause s i).co i).cclosed = (s.co i).cclosed ∧
    ((unpause s i).co i).sav = (s.co i).sav ∧ ((unpause s i).co i).sigmask = (s.co i).sigmask ∧ ((unpause s i).co i).gen = (s.co i).gen := by
  unfold unpause; split
  · simp [upd]
  · simp

theorem tauCo_rl {s s' : S} {i : Nat} (hs : tauCo s i = some s') : ∃ es, rl s' = es ++ rl s ∧ TauRare s i es := by
  have nil : rl s' = rl s → ∃ es, rl s' = es ++ rl s ∧ TauRare s i es := fun h => ⟨[], h, .nil⟩
  unfold tauCo at hs
  split at hs
  · cases hs
  · cases hs
  · cases hs
  · rename_i v e
    cases hs
    unfold doRet; split
    · rename_i h
      exact ⟨[.kill i false], by simp [Ev.rare], .killRet (by rw [e, h.1]) h.2.1 h.2.2⟩
    · rename_i h
      exact ⟨[.ret i (s.co i).call v (s.co i).rdat], by simp [Ev.rare], .ret v e h⟩
  · rename_i n a e
    split at hs
    · rename_i h; cases hs
      exact ⟨[.kill i true], by simp [Ev.rare], .killYield n a e h.1 h.2⟩
    · split at hs <;> cases hs <;> apply nil <;> simp
  · cases hs; apply nil; simp
  · cases hs; exact nil (rl_doAft _ _ _)
  · cases hs; apply nil; rl_tac
  · rename_i b e
    cases hs
    by_cases hb : b = .relock
    · subst hb
      simp only [afterBlk]
      split
      · refine ⟨[], ?_, .nil⟩; simp; exact rl_of (by simp [preBlk])
      · split
        · rename_i h
          refine ⟨[.kill i false], ?_, .killRelock (.inr e) ?_ ?_⟩
          · simp [Ev.rare, preBlk]; exact rl_of (by simp)
          · have := dlCode_canceled.mp h.1
            simpa [upd_co, preBlk, (unpause_keep s i).1] using this
          · simpa [upd_co, preBlk, (unpause_keep s i).2.1] using h.2
        · refine ⟨[], ?_, .nil⟩; simp; exact rl_of (by simp [preBlk])
    · apply nil; rw [rl_afterBlk _ _ _ hb]; simp
  · rename_i e
    split at hs
    · rename_i id dl hcl
      cases hs
      unfold doCancel
      split
      · exact ⟨[], by simp, .nil⟩
      · rename_i hid
        replace hid := Classical.not_not.mp hid
        split
        · exact ⟨[], by simp, .nil⟩
        · dsimp only; split
          · rename_i he
            refine ⟨[.cancel i id], by simp [Ev.rare], .cancel id dl e hcl hid ?_⟩
            rw [dlClear_co] at he
            split at he
            · subst_vars; exact he
            · exact he
          · exact ⟨[], by simp, .nil⟩
    · cases hs; apply nil; rl_tac
  · rename_i e
    split at hs
    · cases hs
      unfold doRelock
      split
      · exact ⟨[], by simp [Ev.rare], .nil⟩
      · split
        · rename_i h
          exact ⟨[.kill i false], by simp [Ev.rare], .killRelock (.inl e) (dlCode_canceled.mp h.1) h.2⟩
        · split <;> exact ⟨[], by simp, .nil⟩
    · cases hs; apply nil; rl_tac
  · cases hs; apply nil; rl_tac
  · rename_i a e
    cases hs
    unfold doExit; split
    · rename_i ha; subst ha
      split
      · rename_i h q hq
        exact ⟨[.clean i h], by simp [Ev.rare], .clean h q e hq⟩
      · rename_i hq
        exact ⟨[.exit i], rl_exitNotify _ _ _, .exit true e (fun _ => hq)⟩
    · rename_i ha
      exact ⟨[.exit i], rl_exitNotify _ _ _, .exit a e (fun h => absurd h ha)⟩

theorem rl_mEvents (s : S) (q) : rl (mEvents s q) = rl s := by
  induction q generalizing s with
  | nil => rfl
  | cons e q ih =>
    simp only [mEvents]; rw [ih]; unfold mEvent; simp only [rl_wakeAll]
    unfold rl; simp only [List.filter_append]
    have h : ∀ (b : Bool) (l : List Nat), (l.map (Ev.ready e.1 b)).filter Ev.rare = [] := by
      intro b l; rw [List.filter_eq_nil_iff]; intro x hx; rw [List.mem_map] at hx; obtain ⟨y, _, rfl⟩ := hx; simp [Ev.rare]
    rw [h, h]; rfl

theorem tauMain_rl {s s' : S} (hs : tauMain s = some s') : rl s' = rl s ∨ rl s' = .halt :: rl s := by
  unfold tauMain at hs
  split at hs
  · (repeat' split at hs) <;> cases hs
    · right; unfold rl note; simp [Ev.rare, List.filter_cons]
    · left; exact (rl_of rfl).trans (rl_mResume s)
    · left; rfl
  · cases hs; left; exact (rl_of rfl).trans (rl_mIo s)
  · cases hs
  · cases hs; left; refine (rl_of rfl).trans (?_ : rl (mSig s) = rl s)
    unfold mSig; (repeat' split) <;> rl_tac
  · cases hs; left; exact (rl_of rfl).trans (rl_mDl s)
  · cases hs; left; exact (rl_of rfl).trans (rl_mRc s)
  · cases hs; left; rfl
  · cases hs

/-- the rare events of one step -/
inductive StepRare (s : S) : Act → List Ev → Prop
  | call (c : Call) (i : Nat) (hc : s.sco.cur = some i) (hp : (s.co i).pc = .user) (hn : c ≠ .none) (h1 : c ≠ .start) (h2 : c ≠ .genStart) : StepRare s (.call c) [.call i c]
  | start (c : Call) (i : Nat) (hc : s.sco.cur = some i) (hp : (s.co i).pc = .user) (h : c = .start ∨ c = .genStart) : StepRare s (.call c) [.start (some i) (s.sco.nextId + 1), .call i c]
  | cpop (i : Nat) (hc : s.sco.cur = some i) (hp : (s.co i).pc = .user) (h : Nat) (q : List Nat) (hq : (s.co i).cleanup = h :: q) : StepRare s (.call (.cpop true)) [.clean i h, .call i (.cpop true)]
  | tau (i : Nat) (hc : s.sco.cur = some i) (es : List Ev) (h : TauRare s i es) : StepRare s .tau es
  | halt (hc : s.sco.cur = none) : StepRare s .tau [.halt]
  | nil (a : Act) (ha : ∀ c, a ≠ .call c) : StepRare s a []
  | sig (n : Nat) : StepRare s (.signal n) [.sig n]
  | wdone (i : Nat) (h : i ∈ s.jobs) : StepRare s (.wdone i) [.wdone i]

theorem step_rl {s s' : S} {a : Act} (hs : step s a = some s') : ∃ es, rl s' = es ++ rl s ∧ StepRare s a es := by
  unfold step at hs
  split at hs
  · cases hs
  cases a with
  | call c =>
    simp only at hs
    split at hs
    · cases hs
    rename_i i hc
    split at hs <;> cases hs
    rename_i hp
    have h0 : rl (upd (note s (.call i c)) i (fun k => { k with call := c })) = .call i c :: rl s := by simp [Ev.rare]
    rcases rl_doCall (upd (note s (.call i c)) i (fun k => { k with call := c })) i c with h | ⟨x, q, h1, h2, h3⟩
    · rw [h0] at h
      split at h
      · rename_i h'; exact ⟨_, h, .start c i hc hp.1 h'⟩
      · rename_i h'; exact ⟨_, h, .call c i hc hp.1 hp.2 (fun e => h' (.inl e)) (fun e => h' (.inr e))⟩
    · subst h1; rw [h0] at h3
      exact ⟨_, h3, .cpop i hc hp.1 x q (by simpa [upd_co] using h2)⟩
  | finish =>
    simp only at hs
    split at hs
    · cases hs
    split at hs <;> cases hs
    exact ⟨[], by simp, .nil _ (by simp)⟩
  | tau =>
    simp only at hs
    split at hs
    · rename_i i hc
      obtain ⟨es, h1, h2⟩ := tauCo_rl hs
      exact ⟨es, h1, .tau i hc es h2⟩
    · rename_i hc
      rcases tauMain_rl hs with h | h
      · exact ⟨[], h, .nil _ (by simp)⟩
      · exact ⟨_, h, .halt hc⟩
  | submit ok =>
    simp only at hs
    split at hs
    · cases hs
    (repeat' split at hs) <;> cases hs <;> exact ⟨[], rl_of rfl, .nil _ (by simp)⟩
  | events evs =>
    simp only at hs
    split at hs
    · cases hs
      refine ⟨[], ?_, .nil _ (by simp)⟩
      refine (rl_of rfl).trans (?_ : rl (if s.nevwaiters > 0 then mEvents s evs else s) = rl s)
      split
      · exact rl_mEvents _ _
      · rfl
    · cases hs
  | clock t => simp only at hs; split at hs <;> cases hs; exact ⟨[], rl_of rfl, .nil _ (by simp)⟩
  | signal n =>
    simp only at hs; (repeat' split at hs) <;> cases hs
    · exact ⟨[.sig n], by simp [rl, note, Ev.rare, List.filter_cons], .sig n⟩
    · exact ⟨[.sig n], by simp [rl, note, Ev.rare, List.filter_cons], .sig n⟩
  | wdone i =>
    simp only at hs; split at hs <;> cases hs
    exact ⟨[.wdone i], by simp only [rl, push, setList, rm, List.filter_cons, List.filter_append, filter_leave_nil (s := s) (i := i) (p := Ev.rare) (fun c => rfl)]; simp [Ev.rare], .wdone i ‹_›⟩


end Neco.Rt
