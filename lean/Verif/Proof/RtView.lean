import Verif.Proof.RtList3
/-!
# A step changes program counter and call only of the running coroutine
-/
namespace Neco.Rt
open Neco.Err

theorem bcastLoop_view (s : S) (c : Nat) (m : Msg) (q : List Node) (j : Nat) :
    view ((bcastLoop s c m q).1.co j) = view (s.co j) := by
  induction q generalizing s with
  | nil => simp [bcastLoop]
  | cons n q ih =>
    cases n with
    | co r =>
      simp only [bcastLoop, ih, schedResume_co, note_co, upd_co, setList_co]; split <;> simp_all [view]
    | case r idx =>
      simp only [bcastLoop]; split
      · exact ih s
      · simp only [ih, schedResume_co, note_co, upd_co, setList_co]; split <;> simp_all [view]

theorem closeLoop_view (s : S) (c : Nat) (q : List Node) (j : Nat) :
    view ((closeLoop s c q).co j) = view (s.co j) := by
  induction q generalizing s with
  | nil => simp [closeLoop]
  | cons n q ih =>
    cases n with
    | co r => simp only [closeLoop, ih, schedResume_co, upd_co, setList_co]; split <;> simp_all [view]
    | case r idx =>
      simp only [closeLoop]; split
      · exact ih s
      · simp only [ih, schedResume_co, upd_co, setList_co]; split <;> simp_all [view]

theorem bcastTry_view (s : S) (c : Nat) (m : Msg) (ch : Chan) (j : Nat) :
    view ((bcastTry s c m ch).1.co j) = view (s.co j) := by
  unfold bcastTry; split
  · exact bcastLoop_view ..
  · rfl

theorem recvNow_co' {s : S} {c r : Nat} {ch : Chan} {m : Msg} {o : Option Nat} {t : S}
    (h : recvNow s c r ch = some (m, o, t)) : t.co = s.co := recvNow_co h


macro "view_tac" h:term : tactic => `(tactic| (
  first
  | rfl
  | (simp only [retv_co, setPc_co, dlClear_co, upd_co, coyield_co, copause_co, note_co, setChan_co, setMu_co, setWg_co,
      push_co, setList_co, rm_co, scoResume_co, if_neg $h]; done)
  | (simp [retv_co, setPc_co, dlClear_co, upd_co, coyield_co, copause_co, yfsr, $h:term]; done)))

section
variable {i j : Nat} (hj : j ≠ i)
include hj

theorem chanSend_view (s : S) (c : Nat) (m : Msg) (dl : Int) : view ((chanSend s i c m dl).co j) = view (s.co j) := by
  unfold chanSend; dsimp only
  split
  · rfl
  split
  · view_tac hj
  split
  · view_tac hj
  have h := sendTry_view (note s (.put c i m)) c m ‹_› j
  split
  · rw [scoResume_co, retv_co, if_neg hj]; exact h
  · unfold sendRest; split
    · rw [retv_co, if_neg hj, setChan_co]; exact h
    · dsimp only; rw [copause_co, if_neg hj]; simp only [upd_co, if_neg hj, setChan_co, push_co]; exact h

theorem chanBcast_view (s : S) (c : Nat) (m : Msg) : view ((chanBcast s i c m).co j) = view (s.co j) := by
  unfold chanBcast; dsimp only
  split
  · rfl
  split
  · view_tac hj
  · unfold yfsr; rw [coyield_co, if_neg hj]; exact bcastTry_view ..

theorem chanRecv_view (s : S) (c : Nat) (t : Bool) (dl : Int) : view ((chanRecv s i c t dl).co j) = view (s.co j) := by
  unfold chanRecv; dsimp only
  split
  · rfl
  split
  · view_tac hj
  split
  · view_tac hj
  split
  · rename_i hr
    rw [resumeOpt_co, retv_co, if_neg hj, upd_co, if_neg hj, recvNow_co' hr]
  split
  · view_tac hj
  · view_tac hj

theorem chanClose1_view (s : S) (c : Nat) (ch : Chan) (a : Aft) : view ((chanClose1 s i c ch a).co j) = view (s.co j) := by
  unfold chanClose1; dsimp only; split
  · view_tac hj
  · unfold yfsr; rw [coyield_co, if_neg hj]
    exact closeLoop_view (setChan s c { ch with sclosed := true }) c _ j

theorem chanClose_view (s : S) (c : Nat) : view ((chanClose s i c).co j) = view (s.co j) := by
  unfold chanClose; split
  · rfl
  split
  · view_tac hj
  · exact chanClose1_view hj ..

theorem chanSelect_view (s : S) (cs : List Nat) (t : Bool) (dl : Int) : view ((chanSelect s i cs dl t).co j) = view (s.co j) := by
  unfold chanSelect; dsimp only
  split
  · rfl
  split
  · view_tac hj
  split
  · split
    · rfl
    split
    · view_tac hj
    split
    · rename_i hr
      rw [resumeOpt_co, setPc_co, if_neg hj]; simp only [recvNow_co' hr]
    · rfl
  split
  · view_tac hj
  · rw [copause_co, if_neg hj]; simp [upd_co, hj]

theorem finishLock_view (s : S) (m : Nat) (rd : Bool) (dl : Int) (b : Blk) :
    view ((finishLock s i m rd dl b).co j) = view (s.co j) := by
  unfold finishLock; dsimp only; view_tac hj

theorem cvEnq_view (s : S) (v : Nat) (dl : Int) : view ((cvEnq s i v dl).co j) = view (s.co j) := by
  unfold cvEnq; dsimp only; view_tac hj

theorem doStart_view (s : S) (g : Option Nat) (hn : j ≤ s.sco.nextId) : view ((doStart s i g).co j) = view (s.co j) := by
  unfold doStart; dsimp only; rw [if_neg (by omega), upd_co, if_neg hj]

theorem doCall_view (s : S) (c : Call) (hn : j ≤ s.sco.nextId) : view ((doCall s i c).co j) = view (s.co j) := by
  cases c <;> simp only [doCall]
  case start => exact doStart_view hj _ _ hn
  case genStart => unfold doGenStart; exact doStart_view (s := { s with nchan := _, chan := _ }) hj _ hn
  case sleep => unfold doSleep; split <;> view_tac hj
  case join => unfold doJoin; dsimp only; (repeat' split) <;> view_tac hj
  case suspend => unfold doSuspend; view_tac hj
  case resume => unfold doResume; (repeat' split) <;> view_tac hj
  case send => exact chanSend_view hj ..
  case bcast => exact chanBcast_view hj ..
  case recv => exact chanRecv_view hj ..
  case tryrecv => exact chanRecv_view hj ..
  case close => exact chanClose_view hj ..
  case select => exact chanSelect_view hj ..
  case tryselect => exact chanSelect_view hj ..
  case genYield =>
    unfold doGenYield; split
    · view_tac hj
    · exact chanSend_view hj ..
  case lock => unfold muLock; dsimp only; (repeat' split) <;> first | view_tac hj | (rw [finishLock_view hj]; view_tac hj)
  case rdlock => unfold muRdlock; dsimp only; (repeat' split) <;> first | view_tac hj | (rw [finishLock_view hj]; view_tac hj)
  case unlock => unfold muUnlock; split <;> view_tac hj
  case trylock => unfold muTrylock; split <;> view_tac hj
  case tryrdlock => unfold muTryrdlock; split <;> view_tac hj
  case wgAdd => unfold wgAdd; dsimp only; (repeat' split) <;> view_tac hj
  case wgDone => unfold wgDone; dsimp only; (repeat' split) <;> view_tac hj
  case wgWait => unfold wgWait; dsimp only; (repeat' split) <;> view_tac hj
  case cvSignal => unfold cvSignal; split <;> view_tac hj
  case cvBcast => unfold cvBcast; view_tac hj
  case cvWait => unfold cvWait; (repeat' split) <;> first | view_tac hj | (rw [cvEnq_view hj]; simp)
  case sigWait => unfold doSigWait; dsimp only; (repeat' split) <;> view_tac hj
  case sigWatch => unfold doSigWatch; dsimp only; (repeat' split) <;> view_tac hj
  case sigUnwatch => unfold doSigUnwatch; dsimp only; (repeat' split) <;> view_tac hj
  case wait => unfold doWait; dsimp only; (repeat' split) <;> view_tac hj
  case chRetain => split <;> view_tac hj
  case chCase => unfold chanCase; (repeat' split) <;> view_tac hj
  case cpop => unfold doCpop; dsimp only; (repeat' split) <;> view_tac hj
  all_goals view_tac hj

theorem tauCo_view {s s' : S} (h : tauCo s i = some s') : view (s'.co j) = view (s.co j) := by
  unfold tauCo at h
  split at h
  case h_1 => cases h
  case h_2 => cases h
  case h_3 => cases h
  case h_4 => cases h; unfold doRet; split <;> view_tac hj
  case h_5 => (repeat' split at h) <;> cases h <;> view_tac hj
  case h_6 => cases h; view_tac hj
  case h_7 a _ =>
    cases h
    cases a with
    | ret v => simp only [doAft]; view_tac hj
    | condEnq => simp only [doAft]; split <;> first | view_tac hj | (rw [cvEnq_view hj])
    | genRel => simp only [doAft]; split <;> view_tac hj
    | exitTail => simp only [doAft]; split <;> view_tac hj
    | fin a => simp only [doAft, doFin]; view_tac hj
  case h_8 => cases h; view_tac hj
  case h_9 b _ =>
    cases h
    obtain ⟨_, e2, _⟩ := preBlk_frame (unpause s i) i b
    have h1 : view ((preBlk (unpause s i) i b).co j) = view (s.co j) := by rw [e2]; exact unpause_view ..
    rw [← h1]
    cases b <;> simp only [afterBlk] <;> (repeat' split) <;> view_tac hj
  case h_10 =>
    (split at h) <;> cases h
    · unfold doCancel; dsimp only; (repeat' split) <;> first
        | view_tac hj
        | (rw [scoResume_co, setPc_co, if_neg hj, note_co]
           rw [upd_view (f := fun k => { k with canceled := true }) (fun _ => rfl)]; view_tac hj)
    · view_tac hj
  case h_11 =>
    (split at h) <;> cases h
    · unfold doRelock; (repeat' split) <;> first | view_tac hj | (rw [finishLock_view hj]; view_tac hj)
    · view_tac hj
  case h_12 => cases h; view_tac hj
  case h_13 a _ =>
    cases h
    unfold doExit exitNotify; dsimp only; (repeat' split) <;> first
      | view_tac hj
      | (rw [chanClose1_view hj]; simp)
end

@[simp] theorem wakeAll_view (s : S) (q : List Nat) (j : Nat) : view ((wakeAll s q).co j) = view (s.co j) := by simp

theorem tauMain_view {s s' : S} (h : tauMain s = some s') (j : Nat) : view (s'.co j) = view (s.co j) := by
  unfold tauMain at h
  split at h
  · (repeat' split at h) <;> cases h <;> simp
  · cases h; simp
  · cases h
  · cases h
    unfold mSig; dsimp only; (repeat' split) <;> first | rfl | (rw [scoResume_co, note_co]; exact upd_view (s := s) (f := fun k => { k with sigmask := ‹Nat› }) (fun _ => rfl) j)
  · cases h; simp only [mDl, wakeAll_co, markDl]; split <;> rfl
  · cases h; rfl
  · cases h; rfl
  · cases h

theorem step_view {s s' : S} {a : Act} (h : step s a = some s') {j : Nat} (hj : s.sco.cur ≠ some j) (hn : j ≤ s.sco.nextId) :
    view (s'.co j) = view (s.co j) := by
  unfold step at h
  split at h
  · cases h
  cases a with
  | call c =>
    simp only at h
    split at h
    · cases h
    · rename_i i hc
      have hij : j ≠ i := by rintro rfl; exact hj hc
      split at h <;> cases h
      rw [doCall_view hij _ _ (by simpa using hn), upd_co, if_neg hij, note_co]
  | finish =>
    simp only at h
    split at h
    · cases h
    · rename_i i hc
      have hij : j ≠ i := by rintro rfl; exact hj hc
      split at h <;> cases h
      view_tac hij
  | tau =>
    simp only at h
    split at h
    · rename_i i hc
      have hij : j ≠ i := by rintro rfl; exact hj hc
      exact tauCo_view hij h
    · exact tauMain_view h j
  | submit ok =>
    simp only at h
    split at h
    · cases h
    · rename_i i hc
      have hij : j ≠ i := by rintro rfl; exact hj hc
      (repeat' split at h) <;> cases h <;> view_tac hij
  | events evs =>
    simp only at h
    split at h
    · cases h; split <;> simp
    · cases h
  | clock t => simp only at h; split at h <;> cases h; rfl
  | signal n => simp only at h; (repeat' split at h) <;> cases h <;> rfl
  | wdone i => simp only at h; split at h <;> cases h; rfl

end Neco.Rt
