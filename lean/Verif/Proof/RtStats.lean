import Verif.Spec.Stats
import Verif.Proof.RtCancel3
/-!
# The counters of `neco_getstats`
-/
namespace Neco.Rt
open Neco.Err

/-- the counters -/
def ct (k : Wk) (s : S) : Int := statOf s k
/-- the share of one program counter -/
def wt (k : Wk) (p : Pc) : Int := if p.wk = some k then 1 else 0

theorem ct_of {s t : S} {k : Wk} (h1 : t.nsleepers = s.nsleepers) (h2 : t.nlocked = s.nlocked) (h3 : t.nreceivers = s.nreceivers) (h4 : t.nsenders = s.nsenders) (h5 : t.nwaitgroupers = s.nwaitgroupers)
    (h6 : t.ncondwaiters = s.ncondwaiters) (h7 : t.nsuspended = s.nsuspended) (h8 : t.nevwaiters = s.nevwaiters) (h9 : t.nsigwaiters = s.nsigwaiters) (h10 : t.niowaiters = s.niowaiters) : ct k t = ct k s := by
  cases k <;> simp [ct, statOf, getStats, *]

macro "ct_tac" : tactic => `(tactic| (first | rfl | (exact ct_of rfl rfl rfl rfl rfl rfl rfl rfl rfl rfl) | (simp; done) | (simp <;> exact ct_of rfl rfl rfl rfl rfl rfl rfl rfl rfl rfl)))

section
variable (k : Wk)
@[simp] theorem ct_note (s : S) (e : Ev) : ct k (note s e) = ct k s := by ct_tac
@[simp] theorem ct_upd (s : S) (i : Nat) (f : Co → Co) : ct k (upd s i f) = ct k s := by ct_tac
@[simp] theorem ct_setPc (s : S) (i : Nat) (p : Pc) : ct k (setPc s i p) = ct k s := by ct_tac
@[simp] theorem ct_rm (s : S) (n : Node) : ct k (rm s n) = ct k s := by ct_tac
@[simp] theorem ct_setList (s : S) (L : LName) (l : List Node) : ct k (setList s L l) = ct k s := by ct_tac
@[simp] theorem ct_push (s : S) (L : LName) (n : Node) : ct k (push s L n) = ct k s := by ct_tac
@[simp] theorem ct_schedResume (s : S) (i : Nat) : ct k (schedResume s i) = ct k s := by ct_tac
@[simp] theorem ct_schedAll (s : S) (L : LName) (q : List Node) : ct k (schedAll s L q) = ct k s := by
  induction q generalizing s with
  | nil => rfl
  | cons n q ih => simp [schedAll, ih]
@[simp] theorem ct_coyield (s : S) (i n : Nat) (a : Aft) : ct k (coyield s i n a) = ct k s := by ct_tac
@[simp] theorem ct_yfsr (s : S) (i n : Nat) (a : Aft) : ct k (yfsr s i n a) = ct k s := by unfold yfsr; (repeat' split) <;> ct_tac
@[simp] theorem ct_scoResume (s : S) (i : Nat) : ct k (scoResume s i) = ct k s := by ct_tac
@[simp] theorem ct_copause (s : S) (i : Nat) (dl : Int) (b : Blk) : ct k (copause s i dl b) = ct k s := by unfold copause; dsimp only; (repeat' split) <;> ct_tac
@[simp] theorem ct_unpause (s : S) (i : Nat) : ct k (unpause s i) = ct k s := by unfold unpause; (try dsimp only); (repeat' split) <;> ct_tac
@[simp] theorem ct_dlClear (s : S) (i : Nat) : ct k (dlClear s i) = ct k s := by ct_tac
@[simp] theorem ct_retv (s : S) (i : Nat) (v : Int) : ct k (retv s i v) = ct k s := by ct_tac
@[simp] theorem ct_setChan (s : S) (c : Nat) (ch : Chan) : ct k (setChan s c ch) = ct k s := by ct_tac
@[simp] theorem ct_chanRelease (s : S) (c : Nat) : ct k (chanRelease s c) = ct k s := by unfold chanRelease; (try dsimp only); (repeat' split) <;> ct_tac
@[simp] theorem ct_sendLoop (s : S) (c : Nat) (m : Msg) (q : List Node) : ct k ((sendLoop s c m q).1) = ct k s := by
  induction q generalizing s with
  | nil => simp [sendLoop]
  | cons n q ih =>
    cases n with
    | co r => simp only [sendLoop] <;> simp [ih]
    | case r k =>
      simp only [sendLoop]; split
      · exact ih _
      · simp [ih]; try ct_tac
@[simp] theorem ct_bcastLoop (s : S) (c : Nat) (m : Msg) (q : List Node) : ct k ((bcastLoop s c m q).1) = ct k s := by
  induction q generalizing s with
  | nil => simp [bcastLoop]
  | cons n q ih =>
    cases n with
    | co r => simp only [bcastLoop] <;> simp [ih]
    | case r k =>
      simp only [bcastLoop]; split
      · exact ih _
      · simp [ih]; try ct_tac
@[simp] theorem ct_sendTry (s : S) (c : Nat) (m : Msg) (ch : Chan) : ct k (sendTry s c m ch).1 = ct k s := by unfold sendTry; split <;> simp
@[simp] theorem ct_bcastTry (s : S) (c : Nat) (m : Msg) (ch : Chan) : ct k (bcastTry s c m ch).1 = ct k s := by unfold bcastTry; split <;> simp
@[simp] theorem ct_closeLoop (s : S) (c : Nat) (q : List Node) : ct k (closeLoop s c q) = ct k s := by
  induction q generalizing s with
  | nil => rfl
  | cons n q ih =>
    cases n <;> simp only [closeLoop] <;> (repeat' split) <;> simp [ih] <;> ct_tac
@[simp] theorem ct_resumeOpt (s : S) (r : Option Nat) : ct k (resumeOpt s r) = ct k s := by cases r <;> ct_tac
@[simp] theorem ct_closeEnd (s : S) (c : Nat) : ct k (closeEnd s c) = ct k s := by unfold closeEnd; (try dsimp only); (repeat' split) <;> ct_tac
@[simp] theorem ct_chanClose1 (s : S) (i c : Nat) (ch : Chan) (a : Aft) : ct k (chanClose1 s i c ch a) = ct k s := by unfold chanClose1; (try dsimp only); (repeat' split) <;> ct_tac
@[simp] theorem ct_selPush (s : S) (i n : Nat) (cs : List Nat) : ct k (selPush s i n cs) = ct k s := by
  induction cs generalizing s n with
  | nil => rfl
  | cons c cs ih => simp only [selPush, ih]; ct_tac
@[simp] theorem ct_selRm (s : S) (i : Nat) : ct k (selRm s i) = ct k s := by ct_tac
@[simp] theorem ct_setMu (s : S) (m : Nat) (x : Mu) : ct k (setMu s m x) = ct k s := by ct_tac
@[simp] theorem ct_handoff (s : S) (m : Nat) (q : List Node) : ct k (handoff s m q) = ct k s := by
  induction q generalizing s with
  | nil => rfl
  | cons n q ih => simp only [handoff]; (repeat' split) <;> simp [ih]
@[simp] theorem ct_fastUnlock (s : S) (m : Nat) : ct k (fastUnlock s m) = ct k s := by unfold fastUnlock; (try dsimp only); (repeat' split) <;> ct_tac
@[simp] theorem ct_setWg (s : S) (w : Nat) (x : Int) : ct k (setWg s w x) = ct k s := by ct_tac
@[simp] theorem ct_noteWithdraw (s : S) (i c : Nat) : ct k (noteWithdraw s i c) = ct k s := by unfold noteWithdraw; (try dsimp only); (repeat' split) <;> ct_tac
@[simp] theorem ct_preBlk (s : S) (i : Nat) (b : Blk) : ct k (preBlk s i b) = ct k s := by unfold preBlk; (try dsimp only); (repeat' split) <;> ct_tac
@[simp] theorem ct_wakeAll (s : S) (q : List Nat) : ct k (wakeAll s q) = ct k s := by
  induction q generalizing s with
  | nil => rfl
  | cons n q ih => simp [wakeAll, ih]
@[simp] theorem ct_markDl (s : S) (q : List Nat) : ct k (markDl s q) = ct k s := by ct_tac
end

theorem ct_recvNow {k : Wk} {s : S} {c r : Nat} {ch : Chan} {m : Msg} {o : Option Nat} {t : S} (h : recvNow s c r ch = some (m, o, t)) : ct k t = ct k s := by
  unfold recvNow at h
  repeat' split at h
  all_goals first
    | (simp at h; done)
    | (simp only [Option.some.injEq, Prod.mk.injEq] at h; obtain ⟨_, _, h⟩ := h; subst h; ct_tac)

section
variable (k : Wk) (t : S)
theorem ct_incSleep : ct k { t with nsleepers := t.nsleepers + 1 } = ct k t + wt k (.blk .sleep) := by cases k <;> simp [ct, statOf, getStats, wt, Pc.wk, Blk.wk]
theorem ct_decSleep : ct k { t with nsleepers := t.nsleepers - 1 } = ct k t - wt k (.blk .sleep) := by cases k <;> simp [ct, statOf, getStats, wt, Pc.wk, Blk.wk]
theorem ct_incLock : ct k { t with nlocked := t.nlocked + 1 } = ct k t + wt k (.blk .relock) := by cases k <;> simp [ct, statOf, getStats, wt, Pc.wk, Blk.wk]
theorem ct_decLock : ct k { t with nlocked := t.nlocked - 1 } = ct k t - wt k (.blk .relock) := by cases k <;> simp [ct, statOf, getStats, wt, Pc.wk, Blk.wk]
theorem ct_incRecv : ct k { t with nreceivers := t.nreceivers + 1 } = ct k t + wt k (.blk .recv) := by cases k <;> simp [ct, statOf, getStats, wt, Pc.wk, Blk.wk]
theorem ct_decRecv : ct k { t with nreceivers := t.nreceivers - 1 } = ct k t - wt k (.blk .recv) := by cases k <;> simp [ct, statOf, getStats, wt, Pc.wk, Blk.wk]
theorem ct_incSend : ct k { t with nsenders := t.nsenders + 1 } = ct k t + wt k (.blk .send) := by cases k <;> simp [ct, statOf, getStats, wt, Pc.wk, Blk.wk]
theorem ct_decSend : ct k { t with nsenders := t.nsenders - 1 } = ct k t - wt k (.blk .send) := by cases k <;> simp [ct, statOf, getStats, wt, Pc.wk, Blk.wk]
theorem ct_incWg : ct k { t with nwaitgroupers := t.nwaitgroupers + 1 } = ct k t + wt k (.blk .wg) := by cases k <;> simp [ct, statOf, getStats, wt, Pc.wk, Blk.wk]
theorem ct_decWg : ct k { t with nwaitgroupers := t.nwaitgroupers - 1 } = ct k t - wt k (.blk .wg) := by cases k <;> simp [ct, statOf, getStats, wt, Pc.wk, Blk.wk]
theorem ct_incCond : ct k { t with ncondwaiters := t.ncondwaiters + 1 } = ct k t + wt k (.blk .cond) := by cases k <;> simp [ct, statOf, getStats, wt, Pc.wk, Blk.wk]
theorem ct_decCond : ct k { t with ncondwaiters := t.ncondwaiters - 1 } = ct k t - wt k (.blk .cond) := by cases k <;> simp [ct, statOf, getStats, wt, Pc.wk, Blk.wk]
theorem ct_incSusp : ct k { t with nsuspended := t.nsuspended + 1 } = ct k t + wt k (.blk .susp) := by cases k <;> simp [ct, statOf, getStats, wt, Pc.wk, Blk.wk]
theorem ct_decSusp : ct k { t with nsuspended := t.nsuspended - 1 } = ct k t - wt k (.blk .susp) := by cases k <;> simp [ct, statOf, getStats, wt, Pc.wk, Blk.wk]
theorem ct_incEv : ct k { t with nevwaiters := t.nevwaiters + 1 } = ct k t + wt k (.blk .wait) := by cases k <;> simp [ct, statOf, getStats, wt, Pc.wk, Blk.wk]
theorem ct_decEv : ct k { t with nevwaiters := t.nevwaiters - 1 } = ct k t - wt k (.blk .wait) := by cases k <;> simp [ct, statOf, getStats, wt, Pc.wk, Blk.wk]
theorem ct_incSig : ct k { t with nsigwaiters := t.nsigwaiters + 1 } = ct k t + wt k (.blk .sig) := by cases k <;> simp [ct, statOf, getStats, wt, Pc.wk, Blk.wk]
theorem ct_decSig : ct k { t with nsigwaiters := t.nsigwaiters - 1 } = ct k t - wt k (.blk .sig) := by cases k <;> simp [ct, statOf, getStats, wt, Pc.wk, Blk.wk]
theorem ct_incIo : ct k { t with niowaiters := t.niowaiters + 1 } = ct k t + wt k .workTry := by cases k <;> simp [ct, statOf, getStats, wt, Pc.wk, Blk.wk]
theorem ct_decIo : ct k { t with niowaiters := t.niowaiters - 1 } = ct k t - wt k .workTry := by cases k <;> simp [ct, statOf, getStats, wt, Pc.wk, Blk.wk]
end

@[simp] theorem wt_ret (k : Wk) (v : Int) : wt k (.ret v) = 0 := by simp [wt, Pc.wk]
@[simp] theorem wt_user (k : Wk) : wt k .user = 0 := by simp [wt, Pc.wk]
@[simp] theorem wt_dead (k : Wk) : wt k .dead = 0 := by simp [wt, Pc.wk]
@[simp] theorem wt_yck (k : Wk) (n : Nat) (a : Aft) : wt k (.yck n a) = 0 := by simp [wt, Pc.wk]
@[simp] theorem wt_yld (k : Wk) (n : Nat) (a : Aft) : wt k (.yld n a) = 0 := by simp [wt, Pc.wk]
@[simp] theorem wt_go (k : Wk) (a : Aft) : wt k (.go a) = 0 := by simp [wt, Pc.wk]
@[simp] theorem wt_selGot (k : Wk) (a b : Nat) (c : Int) : wt k (.selGot a b c) = 0 := by simp [wt, Pc.wk]
@[simp] theorem wt_cancelTry (k : Wk) : wt k .cancelTry = 0 := by simp [wt, Pc.wk]
@[simp] theorem wt_relockPc (k : Wk) : wt k .relock = 0 := by simp [wt, Pc.wk]
@[simp] theorem wt_exitRun (k : Wk) (b : Bool) : wt k (.exitRun b) = 0 := by simp [wt, Pc.wk]
@[simp] theorem wt_join (k : Wk) : wt k (.blk .join) = 0 := by simp [wt, Pc.wk, Blk.wk]
@[simp] theorem wt_cancel (k : Wk) : wt k (.blk .cancel) = 0 := by simp [wt, Pc.wk, Blk.wk]
@[simp] theorem wt_sel (k : Wk) : wt k (.blk .sel) = wt k (.blk .recv) := by simp [wt, Pc.wk, Blk.wk]
@[simp] theorem wt_lock (k : Wk) (b : Bool) : wt k (.blk (.lock b)) = wt k (.blk .relock) := by simp [wt, Pc.wk, Blk.wk]
@[simp] theorem wt_workWait (k : Wk) : wt k .workWait = wt k .workTry := by simp [wt, Pc.wk]
theorem wt_exiting {k : Wk} {p : Pc} (h : p.exiting = true) : wt k p = 0 := by cases p <;> simp [Pc.exiting] at h <;> simp

/-- an operation of `i` that starts outside of any waiting -/
def Cto (k : Wk) (i : Nat) (s t : S) : Prop := ct k t = ct k s + wt k (t.co i).pc

theorem Cto.ret {k : Wk} {i : Nat} {s t : S} {v : Int} (h : ct k t = ct k s) : Cto k i s (retv t i v) := by unfold Cto; rw [pc_retv]; simp [h]
theorem Cto.yfsr {k : Wk} {i n : Nat} {a : Aft} {s t : S} (h : ct k t = ct k s) : Cto k i s (Rt.yfsr t i n a) := by
  unfold Cto; obtain ⟨m, e⟩ := pc_yfsr t i n a; rw [e]; simp [h]
theorem Cto.res {k : Wk} {i j : Nat} {s t : S} (h : Cto k i s t) : Cto k i s (scoResume t j) := by unfold Cto at *; rw [pc_scoResume]; simpa using h
theorem Cto.resO {k : Wk} {i : Nat} {s t : S} (h : Cto k i s t) (o : Option Nat) : Cto k i s (resumeOpt t o) := by cases o with | none => exact h | some j => exact h.res
theorem Cto.blk {k : Wk} {i : Nat} {dl : Int} {b : Blk} {s t : S} (h : ct k t = ct k s + wt k (.blk b)) : Cto k i s (copause t i dl b) := by unfold Cto; rw [pc_copause]; simp [h]
theorem Cto.same {k : Wk} {i : Nat} {s t : S} (h : ct k t = ct k s) (hp : wt k (t.co i).pc = 0) : Cto k i s t := by unfold Cto; rw [h, hp]; simp

section
variable {k : Wk} {s : S} {i : Nat} (hu : wt k (s.co i).pc = 0)
include hu

theorem chanSend_ct (c : Nat) (m : Msg) (dl : Int) : Cto k i s (chanSend s i c m dl) := by
  unfold chanSend; dsimp only
  split
  · exact .same (by ct_tac) hu
  · split
    · exact .ret (by ct_tac)
    split
    · exact .ret (by ct_tac)
    split
    · exact .res (.ret (by ct_tac))
    · unfold sendRest; split
      · exact .ret (by ct_tac)
      · exact .blk ((ct_incSend ..).trans (by simp))
theorem chanRecv_ct (c : Nat) (b : Bool) (dl : Int) : Cto k i s (chanRecv s i c b dl) := by
  unfold chanRecv
  split
  · exact .same (by ct_tac) hu
  · split
    · exact .ret (by ct_tac)
    split
    · exact .ret (by ct_tac)
    split
    · rename_i h
      exact .resO (.ret (by simpa using ct_recvNow h)) _
    · split
      · exact .ret (by ct_tac)
      · exact .blk ((ct_incRecv ..).trans (by simp))
theorem chanSelect_ct (cs : List Nat) (dl : Int) (b : Bool) : Cto k i s (chanSelect s i cs dl b) := by
  unfold chanSelect
  split
  · exact .same (by ct_tac) hu
  split
  · exact .ret (by ct_tac)
  split
  · split
    · exact .same (by ct_tac) hu
    split
    · exact .same (by ct_tac) (by simp)
    split
    · rename_i h
      dsimp only
      refine .resO (.same ?_ (by simp)) _
      rw [ct_setPc]
      rw [← ct_recvNow (k := k) h]; exact ct_of rfl rfl rfl rfl rfl rfl rfl rfl rfl rfl
    · exact .same (by ct_tac) hu
  · split
    · exact .ret (by ct_tac)
    · exact .blk ((ct_incRecv ..).trans (by simp))

theorem finishLock_ct {t : S} (h : ct k t = ct k s) (m : Nat) (rd : Bool) (dl : Int) (b : Blk) (hb : wt k (.blk b) = wt k (.blk .relock)) : Cto k i s (finishLock t i m rd dl b) := by
  unfold finishLock; dsimp only
  exact .blk ((ct_incLock ..).trans (by simp [h, hb]))
theorem lock_ct (m : Nat) (dl : Int) : Cto k i s (muLock s i m dl) := by
  unfold muLock; dsimp only; (repeat' split)
  · exact .ret (by ct_tac)
  · exact finishLock_ct hu (by simp) _ _ _ _ (by simp)
  · exact .ret (by ct_tac)
theorem rdlock_ct (m : Nat) (dl : Int) : Cto k i s (muRdlock s i m dl) := by
  unfold muRdlock; dsimp only; (repeat' split)
  · exact .ret (by ct_tac)
  · exact finishLock_ct hu (by simp) _ _ _ _ (by simp)
  · exact .ret (by ct_tac)
theorem unlock_ct (m : Nat) : Cto k i s (muUnlock s i m) := by
  unfold muUnlock; (repeat' split)
  all_goals first | exact .ret (by ct_tac) | exact .yfsr (by ct_tac) | exact .same (by ct_tac) (by simp) 
theorem wgWait_ct (w : Nat) (dl : Int) : Cto k i s (wgWait s i w dl) := by
  unfold wgWait; dsimp only; (repeat' split)
  all_goals first | exact .ret (by ct_tac) | exact .yfsr (by ct_tac) | exact .blk ((ct_incWg ..).trans (by simp)) | exact .same (by ct_tac) (by simp)
theorem wgDone_ct (w : Nat) : Cto k i s (wgDone s i w) := by
  unfold wgDone; dsimp only; (repeat' split)
  all_goals first | exact .ret (by ct_tac) | exact .res (.ret (by ct_tac)) | exact .yfsr (by ct_tac)
theorem wgAdd_ct (w : Nat) (d : Int) : Cto k i s (wgAdd s i w d) := by
  unfold wgAdd; dsimp only; (repeat' split)
  all_goals first | exact .ret (by ct_tac) | exact .same (by ct_tac) hu
theorem cvSignal_ct (v : Nat) : Cto k i s (cvSignal s i v) := by
  unfold cvSignal; (try dsimp only); (repeat' split)
  all_goals first | exact .ret (by ct_tac) | exact .res (.ret (by ct_tac))
theorem cvBcast_ct (v : Nat) : Cto k i s (cvBcast s i v) := by
  unfold cvBcast; (try dsimp only); (repeat' split)
  all_goals first | exact .ret (by ct_tac) | exact .yfsr (by ct_tac)
theorem cvEnq_ct {t : S} (h : ct k t = ct k s) (v : Nat) (dl : Int) : Cto k i s (cvEnq t i v dl) := by
  unfold cvEnq; dsimp only; exact .blk ((ct_incCond ..).trans (by simp [h]))
theorem cvWait_ct (v m : Nat) (dl : Int) : Cto k i s (cvWait s i v m dl) := by
  unfold cvWait; (try dsimp only); (repeat' split)
  all_goals first | exact .ret (by ct_tac) | exact .yfsr (by ct_tac) | exact cvEnq_ct hu (by ct_tac) _ _ | exact .same (by ct_tac) (by simp)
theorem sleep_ct (dl : Int) : Cto k i s (doSleep s i dl) := by
  unfold doSleep; (try dsimp only); (repeat' split)
  all_goals first | exact .ret (by ct_tac) | exact .blk ((ct_incSleep ..).trans (by simp))
theorem join_ct (id : Nat) (dl : Int) : Cto k i s (doJoin s i id dl) := by
  unfold doJoin; (try dsimp only); (repeat' split)
  all_goals first | exact .ret (by ct_tac) | exact .blk (by simp)
theorem suspend_ct (dl : Int) : Cto k i s (doSuspend s i dl) := by
  unfold doSuspend; (try dsimp only); (repeat' split)
  all_goals first | exact .ret (by ct_tac) | exact .blk ((ct_incSusp ..).trans (by simp))
theorem resume_ct (id : Nat) : Cto k i s (doResume s i id) := by
  unfold doResume; (try dsimp only); (repeat' split)
  all_goals first | exact .ret (by ct_tac) | exact .res (.ret (by ct_tac))
theorem sigWait_ct (dl : Int) : Cto k i s (doSigWait s i dl) := by
  unfold doSigWait; (try dsimp only); (repeat' split)
  all_goals first | exact .ret (by ct_tac) | exact .blk ((ct_incSig ..).trans (by simp))
theorem wait_ct (fd : Nat) (wr : Bool) (dl : Int) : Cto k i s (doWait s i fd wr dl) := by
  unfold doWait; (try dsimp only); (repeat' split)
  all_goals first | exact .ret (by ct_tac) | exact .blk (Eq.trans (by cases k <;> rfl) (ct_incEv k s))
theorem bcast_ct (c : Nat) (m : Msg) : Cto k i s (chanBcast s i c m) := by
  unfold chanBcast; (try dsimp only); (repeat' split)
  all_goals first | exact .ret (by ct_tac) | exact .yfsr (by ct_tac) | exact .same (by ct_tac) hu
theorem close_ct (c : Nat) : Cto k i s (chanClose s i c) := by
  unfold chanClose chanClose1; (try dsimp only); (repeat' split)
  all_goals first | exact .ret (by ct_tac) | exact .yfsr (by ct_tac) | exact .same (by ct_tac) hu | exact .same (by ct_tac) (by simp)
theorem start_ct (g : Option Nat) (hn : i ≤ s.sco.nextId) : Cto k i s (doStart s i g) := by
  have h : i ≠ s.sco.nextId + 1 := by omega
  refine .same ?_ ?_
  · unfold doStart; dsimp only; ct_tac
  · simp [doStart, upd_co, h]
end

theorem doCall_ct {k : Wk} {s : S} {i : Nat} (hu : wt k (s.co i).pc = 0) (hn : i ≤ s.sco.nextId) (c : Call) : Cto k i s (doCall s i c) := by
  cases c
  case send c m dl => exact chanSend_ct hu ..
  case recv c dl => exact chanRecv_ct hu ..
  case tryrecv c => exact chanRecv_ct hu ..
  case select cs dl => exact chanSelect_ct hu ..
  case tryselect cs => exact chanSelect_ct hu ..
  case genYield m dl =>
    simp only [doCall, doGenYield]; split
    · exact .ret (by ct_tac)
    · exact chanSend_ct hu ..
  case lock m dl => exact lock_ct hu ..
  case rdlock m dl => exact rdlock_ct hu ..
  case unlock m => exact unlock_ct hu ..
  case wgWait w dl => exact wgWait_ct hu ..
  case wgDone w => exact wgDone_ct hu ..
  case wgAdd w d => exact wgAdd_ct hu ..
  case cvSignal v => exact cvSignal_ct hu ..
  case cvBcast v => exact cvBcast_ct hu ..
  case cvWait v m dl => exact cvWait_ct hu ..
  case sleep dl => exact sleep_ct hu ..
  case join id dl => exact join_ct hu ..
  case suspend dl => exact suspend_ct hu ..
  case resume id => exact resume_ct hu ..
  case sigWait dl => exact sigWait_ct hu ..
  case wait fd w dl => exact wait_ct hu ..
  case work => simp only [doCall]; unfold Cto; rw [pc_setPc, ct_setPc]; exact ct_incIo ..
  case bcast c m => exact bcast_ct hu ..
  case close c => exact close_ct hu ..
  case start => exact start_ct hu _ hn
  case genStart =>
    have := start_ct (s := { s with nchan := s.nchan + 1, chan := fun k => if k = s.nchan then some { rc := 1 } else s.chan k }) hu (some s.nchan) hn
    exact this
  case none => exact .same rfl hu
  all_goals simp only [doCall, chanCase, muTrylock, muTryrdlock, doCpop, doSigWatch, doSigUnwatch]; (repeat' split)
  all_goals first | exact .ret (by ct_tac) | exact .same (by ct_tac) hu | exact .same (by ct_tac) (by simp)

theorem afterBlk_ct (k : Wk) (s : S) (i : Nat) (b : Blk) : ct k (afterBlk s i b) + wt k (.blk b) = ct k s + wt k ((afterBlk s i b).co i).pc := by
  have key : ∀ {t u : S}, ct k u = ct k t → ct k t + wt k (.blk b) = ct k s → wt k (u.co i).pc = 0 → ct k u + wt k (.blk b) = ct k s + wt k (u.co i).pc := by
    intro t u h1 h2 h3; rw [h1, h3, h2]; simp
  cases b
  case sleep =>
    have h2 : ct k { s with nsleepers := s.nsleepers - 1 } + wt k (.blk .sleep) = ct k s := by rw [ct_decSleep]; omega
    unfold afterBlk; dsimp only
    exact key (t := { s with nsleepers := s.nsleepers - 1 }) (by simp) h2 (by simp)
  case send =>
    have h2 : ct k { s with nsenders := s.nsenders - 1 } + wt k (.blk .send) = ct k s := by rw [ct_decSend]; omega
    unfold afterBlk; dsimp only
    exact key (t := { s with nsenders := s.nsenders - 1 }) (by simp) h2 (by simp)
  case recv =>
    have h2 : ct k { s with nreceivers := s.nreceivers - 1 } + wt k (.blk .recv) = ct k s := by rw [ct_decRecv]; omega
    unfold afterBlk; dsimp only; (repeat' split)
    all_goals refine key ?_ h2 (by simp)
    all_goals first | (simp; done) | (simp; exact ct_of rfl rfl rfl rfl rfl rfl rfl rfl rfl rfl)
  case sel =>
    have h2 : ct k { s with nreceivers := s.nreceivers - 1 } + wt k (.blk .sel) = ct k s := by rw [ct_decRecv, wt_sel]; omega
    unfold afterBlk; dsimp only
    exact key (by simp) h2 (by simp)
  case lock rd =>
    have h2 : ct k { s with nlocked := s.nlocked - 1 } + wt k (.blk (.lock rd)) = ct k s := by rw [ct_decLock, wt_lock]; omega
    unfold afterBlk; dsimp only
    exact key (by simp) h2 (by simp)
  case relock =>
    have h2 : ct k { s with nlocked := s.nlocked - 1 } + wt k (.blk .relock) = ct k s := by rw [ct_decLock]; omega
    unfold afterBlk; dsimp only; (repeat' split)
    all_goals exact key (by simp) h2 (by simp)
  case wg =>
    have h2 : ct k { s with nwaitgroupers := s.nwaitgroupers - 1 } + wt k (.blk .wg) = ct k s := by rw [ct_decWg]; omega
    unfold afterBlk; dsimp only
    exact key (by simp) h2 (by simp)
  case cond =>
    have h2 : ct k { s with ncondwaiters := s.ncondwaiters - 1 } + wt k (.blk .cond) = ct k s := by rw [ct_decCond]; omega
    unfold afterBlk; dsimp only
    exact key (by simp) h2 (by simp)
  case join => unfold afterBlk; dsimp only; exact key (t := s) (by simp) (by simp) (by simp)
  case cancel => unfold afterBlk; dsimp only; exact key (t := s) (by simp) (by simp) (by simp)
  case susp =>
    have h2 : ct k { s with nsuspended := s.nsuspended - 1 } + wt k (.blk .susp) = ct k s := by rw [ct_decSusp]; omega
    unfold afterBlk; dsimp only
    exact key (by simp) h2 (by simp)
  case sig =>
    have h2 : ct k { s with nsigwaiters := s.nsigwaiters - 1 } + wt k (.blk .sig) = ct k s := by rw [ct_decSig]; omega
    unfold afterBlk; dsimp only
    exact key (by simp) h2 (by simp)
  case wait =>
    have h2 : ct k { s with nevwaiters := s.nevwaiters - 1 } + wt k (.blk .wait) = ct k s := by rw [ct_decEv]; omega
    unfold afterBlk; dsimp only
    exact key (t := { s with nevwaiters := s.nevwaiters - 1 }) (by simp; exact ct_of rfl rfl rfl rfl rfl rfl rfl rfl rfl rfl) h2 (by simp)

@[simp] theorem ct_exitNotify (k : Wk) (s : S) (i : Nat) (a : Bool) : ct k (exitNotify s i a) = ct k s := by
  have key : ∀ t0 : S, ct k t0 = ct k s → ∀ q1 q2, ct k (schedAll (setList (schedAll (setList t0 (.cancelQ i) []) (.cancelQ i) q1) (.joinQ i) []) (.joinQ i) q2) = ct k s := by
    intro t0 h q1 q2; simp [h]
  unfold exitNotify
  dsimp only
  generalize hu : schedAll (setList (schedAll (setList { s with all := s.all.filter (fun j => decide (j ≠ i)), allCount := s.allCount - 1, log := .exit i :: s.log } (.cancelQ i) []) (.cancelQ i) _) (.joinQ i) []) (.joinQ i) _ = u
  have hk : ct k u = ct k s := by rw [← hu]; refine key _ ?_ _ _; exact ct_of rfl rfl rfl rfl rfl rfl rfl rfl rfl rfl
  (repeat' split)
  · simp [hk]
  · exact Eq.trans (ct_of rfl rfl rfl rfl rfl rfl rfl rfl rfl rfl) hk
  · simp [hk]
  · simp [hk]
@[simp] theorem ct_doFin (k : Wk) (s : S) (i : Nat) (a : Bool) : ct k (doFin s i a) = ct k s := by unfold doFin; ct_tac

theorem doExit_ct {k : Wk} {s : S} {i : Nat} {a : Bool} : ct k (doExit s i a) = ct k s := by
  unfold doExit; (repeat' split) <;> simp

theorem doAft_ct {k : Wk} {s : S} {i : Nat} {a : Aft} : Cto k i s (doAft s i a) ∨ (doAft s i a).fault = true := by
  cases a with
  | ret v => exact .inl (.ret rfl)
  | condEnq =>
    simp only [doAft]; split
    · left; unfold cvEnq; dsimp only; exact .blk ((ct_incCond ..).trans (by simp))
    · exact .inr rfl
  | genRel x y =>
    simp only [doAft]; split
    · exact .inl (.same (by simp) (by simp))
    · exact .inr rfl
  | exitTail x y =>
    simp only [doAft]; split
    · exact .inl (.yfsr rfl)
    · exact .inl (.same (by simp) (by simp))
  | fin x => 
    refine .inl (.same (by simp [doAft]) ?_)
    simp [doAft, doFin]

theorem doRelock_ct {k : Wk} {s : S} {i m : Nat} : Cto k i s (doRelock s i m) := by
  unfold doRelock; (repeat' split)
  · exact .ret (by simp)
  · exact .same (by simp) (by simp)
  · exact .same (by simp) (by simp)
  · unfold finishLock; dsimp only
    exact .blk ((ct_incLock ..).trans (by simp))

theorem doCancel_ct {k : Wk} {s : S} {i id : Nat} {dl : Int} : Cto k i s (doCancel s i id dl) := by
  unfold doCancel; dsimp only; (repeat' split)
  · exact .ret (by simp)
  · exact .ret (by simp)
  · exact .res (.same (by simp) (by simp))
  · exact .blk (by simp)

theorem tauCo_ct {k : Wk} {s s' : S} {i : Nat} (hs : tauCo s i = some s') (hf : s'.fault = false) : ct k s' + wt k (s.co i).pc = ct k s + wt k (s'.co i).pc := by
  have key : ∀ {t : S}, wt k (s.co i).pc = 0 → Cto k i s t → ct k t + wt k (s.co i).pc = ct k s + wt k (t.co i).pc := by
    intro t h1 h2; unfold Cto at h2; omega
  unfold tauCo at hs
  split at hs <;> rename_i e <;> try (cases hs; done)
  · cases hs
    refine key (by rw [e]; simp) ?_
    unfold doRet; split
    · exact .same (by simp) (by simp)
    · exact .same (by simp) (by simp [upd_co])
  · refine key (by rw [e]; simp) ?_
    (repeat' split at hs) <;> cases hs
    · exact .same (by simp) (by simp)
    · exact .same (by simp) (by simp)
    · exact .same (by simp) (by rw [pc_coyield]; simp)
  · cases hs
    exact key (by rw [e]; simp) (.same (by simp) (by rw [pc_coyield]; simp))
  · cases hs
    refine key (by rw [e]; simp) ?_
    rcases doAft_ct (k := k) (s := s) (i := i) with h | h
    · exact h
    · rw [h] at hf; cases hf
  · cases hs
    refine key (by rw [e]; simp) (.ret ?_)
    exact ct_of rfl rfl rfl rfl rfl rfl rfl rfl rfl rfl
  · cases hs
    rw [e, afterBlk_ct]; simp
  · split at hs <;> cases hs
    · exact key (by rw [e]; simp) doCancel_ct
    · cases hf
  · split at hs <;> cases hs
    · exact key (by rw [e]; simp) doRelock_ct
    · cases hf
  · cases hs
    rw [e, pc_retv, ct_retv, ct_decIo]; simp
  · cases hs
    refine key (by rw [e]; simp) (.same doExit_ct ?_)
    exact wt_exiting (doExit_pc e).1

theorem mEvents_ct {k : Wk} {s : S} {evs : List (Nat × Bool × Bool)} : ct k (mEvents s evs) = ct k s := by
  induction evs generalizing s with
  | nil => rfl
  | cons e evs ih => simp only [mEvents, ih, mEvent]; ct_tac
theorem tauMain_ct {k : Wk} {s s' : S} (hs : tauMain s = some s') : ct k s' = ct k s := by
  unfold tauMain at hs
  (repeat' split at hs) <;> cases hs
  · rfl
  · refine Eq.trans (ct_of (s := mResume s) rfl rfl rfl rfl rfl rfl rfl rfl rfl rfl) ?_
    unfold mResume; dsimp only; rw [ct_wakeAll]; exact ct_of rfl rfl rfl rfl rfl rfl rfl rfl rfl rfl
  · rfl
  · refine Eq.trans (ct_of (s := mIo s) rfl rfl rfl rfl rfl rfl rfl rfl rfl rfl) ?_
    unfold mIo; split
    · simp
    · rfl
  · refine Eq.trans (ct_of (s := mSig s) rfl rfl rfl rfl rfl rfl rfl rfl rfl rfl) ?_
    unfold mSig; (repeat' split) <;> first | rfl | exact ct_of rfl rfl rfl rfl rfl rfl rfl rfl rfl rfl
  · refine Eq.trans (ct_of (s := mDl s) rfl rfl rfl rfl rfl rfl rfl rfl rfl rfl) ?_
    unfold mDl; simp
  · exact ct_of rfl rfl rfl rfl rfl rfl rfl rfl rfl rfl
  · exact ct_of rfl rfl rfl rfl rfl rfl rfl rfl rfl rfl

theorem step_ct {ok} {k : Wk} {s s' : S} {a : Act} (r : Reach ok s) (hs : step s a = some s') (hf : s'.fault = false) :
    (s.sco.cur = none → ct k s' = ct k s) ∧ ∀ i, s.sco.cur = some i → ct k s' + wt k (s.co i).pc = ct k s + wt k (s'.co i).pc := by
  have hw := reach_scoWF r
  have hs0 := hs
  cases a with
  | call c =>
    obtain ⟨i, hc, hp, hn, h4⟩ := step_call hs
    refine ⟨(by rw [hc]; intro h; cases h), fun j hj => ?_⟩
    rw [hc] at hj; cases hj
    have := doCall_ct (k := k) (s := callSt s i c) (i := i) (by simp [callSt, upd_co, hp]) (cur_le hw hc).2 c
    obtain ⟨_, _, e⟩ := step_call_of hs hc
    unfold Cto at this
    rw [← e] at this
    rw [hp, this]
    have e2 : ct k (callSt s i c) = ct k s := by unfold callSt; simp
    rw [e2]; simp
  | finish =>
    unfold step at hs
    split at hs
    · cases hs
    simp only at hs
    split at hs
    · cases hs
    rename_i i hc
    split at hs <;> cases hs
    rename_i hu
    refine ⟨(by rw [hc]; intro h; cases h), fun j hj => ?_⟩
    rw [hc] at hj; cases hj
    simp [hu]
  | tau =>
    unfold step at hs
    split at hs
    · cases hs
    simp only at hs
    split at hs
    · rename_i i hc
      refine ⟨(by rw [hc]; intro h; cases h), fun j hj => ?_⟩
      rw [hc] at hj; cases hj
      exact tauCo_ct hs hf
    · rename_i hc
      exact ⟨fun _ => tauMain_ct hs, fun i hi => by rw [hc] at hi; cases hi⟩
  | submit b =>
    unfold step at hs
    split at hs
    · cases hs
    simp only at hs
    split at hs
    · cases hs
    rename_i i hc
    split at hs
    · rename_i hp
      refine ⟨(by rw [hc]; intro h; cases h), fun j hj => ?_⟩
      rw [hc] at hj; cases hj
      split at hs <;> cases hs
      · rw [hp]
        show ct k { setPc _ i .workWait with sco := _ } + _ = _ + wt k ((setPc _ i .workWait).co i).pc
        rw [pc_setPc, wt_workWait]; congr 1
      · congr 1
    · cases hs
  | events evs =>
    unfold step at hs
    split at hs
    · cases hs
    simp only at hs
    split at hs
    · rename_i h
      refine ⟨fun _ => ?_, fun i hi => by rw [h.1] at hi; cases hi⟩
      cases hs
      refine Eq.trans (ct_of (s := if s.nevwaiters > 0 then mEvents s evs else s) rfl rfl rfl rfl rfl rfl rfl rfl rfl rfl) ?_
      split
      · exact mEvents_ct
      · rfl
    · cases hs
  | clock t =>
    unfold step at hs
    split at hs
    · cases hs
    simp only at hs
    split at hs <;> cases hs
    exact ⟨fun _ => rfl, fun i _ => rfl⟩
  | signal n =>
    unfold step at hs
    split at hs
    · cases hs
    simp only at hs
    (repeat' split at hs) <;> cases hs
    all_goals exact ⟨fun _ => rfl, fun i _ => rfl⟩
  | wdone k =>
    unfold step at hs
    split at hs
    · cases hs
    simp only at hs
    split at hs <;> cases hs
    exact ⟨fun _ => rfl, fun i _ => rfl⟩

/-! ## The sum over all coroutines -/

def sumTo (f : Nat → Int) : Nat → Int
  | 0 => 0
  | n + 1 => sumTo f n + f n
theorem sumTo_eq {f g : Nat → Int} {n : Nat} (h : ∀ j, j < n → g j = f j) : sumTo g n = sumTo f n := by
  induction n with
  | zero => rfl
  | succ n ih => rw [sumTo, sumTo, ih (fun j hj => h j (by omega)), h n (by omega)]
theorem sumTo_upd {f g : Nat → Int} {i n : Nat} (h : ∀ j, j ≠ i → j < n → g j = f j) (hi : i < n) : sumTo g n + f i = sumTo f n + g i := by
  induction n with
  | zero => omega
  | succ n ih =>
    rw [sumTo, sumTo]
    by_cases hn : i = n
    · subst hn
      rw [sumTo_eq (fun j hj => h j (by omega) (by omega))]; omega
    · have := ih (fun j h1 h2 => h j h1 (by omega)) (by omega)
      rw [h n (fun e => hn e.symm) (by omega)]; omega

theorem sumTo_countP (s : S) (k : Wk) (n : Nat) : sumTo (fun j => wt k (s.co j).pc) n = (((List.range n).countP (fun i => (s.co i).pc.wk == some k) : Nat) : Int) := by
  induction n with
  | zero => rfl
  | succ n ih =>
    rw [sumTo, ih, List.range_succ, List.countP_append]
    simp only [List.countP_cons, List.countP_nil, wt]
    split <;> simp_all

/-- the counters are right -/
def InvCt (s : S) : Prop := s.fault = false → ∀ k, ct k s = sumTo (fun j => wt k (s.co j).pc) (s.sco.nextId + 1)

theorem reach_invCt {ok} {s : S} (r : Reach ok s) : InvCt s := by
  induction r with
  | init a e => intro _ k; cases k <;> simp [init, ct, statOf, getStats, sumTo, Sco.start, wt, Pc.wk]
  | @step s s' r a hok hs ih =>
    have hw := reach_scoWF r
    intro hf k
    have ih := ih (step_nofault hs) k
    obtain ⟨h1, h2⟩ := step_ct (k := k) r hs hf
    have hoth : ∀ j, s.sco.cur ≠ some j → ¬ ((a = .call .start ∨ a = .call .genStart) ∧ j = s.sco.nextId + 1) → (s'.co j).pc = (s.co j).pc := by
      intro j hj hn
      exact (step_other (reach_invL r) (reach_invC r) hs hj (fun ha e => hn ⟨ha, e⟩) (((reach_invF r).cf j).evU)).pc.1
    cases hc : s.sco.cur with
    | none =>
      have hst : ¬ (a = .call .start ∨ a = .call .genStart) := by
        intro ha; obtain ⟨i, g, hi, _⟩ := start_new ha hs; rw [hc] at hi; cases hi
      have hnx : s'.sco.nextId = s.sco.nextId := by
        have := nx_step hs (reach_invA r); rwa [if_neg hst] at this
      rw [h1 hc, ih, hnx]
      refine sumTo_eq (fun j hj => ?_)
      rw [hoth j (by rw [hc]; simp) (fun h => hst h.1)]
    | some i =>
      have h2 := h2 i hc
      have hi := (cur_le hw hc).2
      have hnx : s'.sco.nextId = s.sco.nextId ∨ (s'.sco.nextId = s.sco.nextId + 1 ∧ (a = .call .start ∨ a = .call .genStart)) := by
        have := nx_step hs (reach_invA r)
        split at this
        · rename_i h; exact .inr ⟨this, h⟩
        · exact .inl this
      rcases hnx with hnx | ⟨hnx, ha⟩
      · rw [hnx]
        have := sumTo_upd (f := fun j => wt k (s.co j).pc) (g := fun j => wt k (s'.co j).pc) (i := i) (n := s.sco.nextId + 1) (fun j hj hjn => by
          show wt k _ = wt k _
          rw [hoth j (by rw [hc]; intro e; cases e; exact hj rfl) (fun h => by omega)]) (by omega)
        omega
      · rw [hnx, sumTo]
        have h0 : wt k (s'.co (s.sco.nextId + 1)).pc = 0 := by
          obtain ⟨_, g, _, e1, _⟩ := start_new ha hs
          rw [e1, (newCo_pc s _ g).1]; simp
        have := sumTo_upd (f := fun j => wt k (s.co j).pc) (g := fun j => wt k (s'.co j).pc) (i := i) (n := s.sco.nextId + 1) (fun j hj hjn => by
          show wt k _ = wt k _
          rw [hoth j (by rw [hc]; intro e; cases e; exact hj rfl) (fun h => by omega)]) (by omega)
        omega

/-! ## The count of coroutines -/

/-- the count is the number of births less the number of ends -/
structure InvAc (s : S) : Prop where
  al : s.allCount = (starts (rl s)).length - (exits (rl s)).length

theorem InvAc.same {s t : S} (h : InvAc s) (ha : t.allCount = s.allCount) (hr : rl t = rl s) (_ : t.sco.nextId = s.sco.nextId) : InvAc t :=
  ⟨by rw [ha, hr]; exact h.al⟩

/-- one event that is neither a birth nor a death -/
theorem InvAc.cons {s t : S} (h : InvAc s) {e : Ev} (ha : t.allCount = s.allCount) (hr : rl t = e :: rl s) (_ : t.sco.nextId = s.sco.nextId)
    (h1 : exits (e :: rl s) = exits (rl s)) (h2 : starts (e :: rl s) = starts (rl s)) : InvAc t :=
  ⟨by rw [ha, hr, h1, h2]; exact h.al⟩

theorem doStart_invAc {s : S} (h : InvAc s) (i : Nat) (g : Option Nat) : InvAc (doStart s i g) := by
  refine ⟨?_⟩
  rw [rl_doStart]; simp [exits, starts, doStart, h.al]; omega

theorem doCall_invAc {s : S} (h : InvAc s) (i : Nat) (c : Call) : InvAc (doCall s i c) := by
  by_cases hc : c = .start ∨ c = .genStart
  · rcases hc with rfl | rfl
    · exact doStart_invAc h i _
    · simp only [doCall, doGenStart]; apply doStart_invAc; exact h.same rfl (rl_of rfl) rfl
  · have ha : (doCall s i c).allCount = s.allCount := by
      cases c <;> simp [doCall] at hc ⊢ <;> (try split) <;> simp
    have hn : (doCall s i c).sco.nextId = s.sco.nextId := by
      cases c <;> simp [doCall] at hc ⊢ <;> (try split) <;> simp
    rcases rl_doCall s i c with h1 | ⟨x, q, h1, h2, h3⟩
    · rw [if_neg hc] at h1; exact h.same ha h1 hn
    · exact h.cons ha h3 hn rfl rfl

theorem exitNotify_allCount (s : S) (i : Nat) (a : Bool) : (exitNotify s i a).allCount = s.allCount - 1 := by
  unfold exitNotify; dsimp only; (repeat' split) <;> simp

theorem exitNotify_invAc {s : S} (h : InvAc s) (i : Nat) (a : Bool) : InvAc (exitNotify s i a) :=
  ⟨by rw [exitNotify_allCount, rl_exitNotify, h.al]; simp [exits, starts]; omega⟩

theorem tauCo_invAc {s s' : S} (h : InvAc s) {i : Nat} (hs : tauCo s i = some s') : InvAc s' := by
  unfold tauCo at hs
  split at hs
  · cases hs
  · cases hs
  · cases hs
  · cases hs
    unfold doRet; split
    · exact h.cons (e := .kill i false) (by simp) (by simp [Ev.rare]) (by simp) rfl rfl
    · exact h.cons (e := .ret i (s.co i).call _ (s.co i).rdat) (by simp) (by simp [Ev.rare]; rfl) (by simp) rfl rfl
  · split at hs
    · cases hs; exact h.cons (e := .kill i true) (by simp) (by simp [Ev.rare]) (by simp) rfl rfl
    · split at hs <;> cases hs <;> exact h.same (by simp) (by simp) (by simp)
  · cases hs; exact h.same (by simp) (by simp) (by simp)
  · rename_i a _
    cases hs; exact h.same (by simp) (rl_doAft _ _ _) (by simp)
  · cases hs; exact h.same (by simp) (rl_of (by simp)) (by simp)
  · rename_i b e
    cases hs
    have hal : ∀ t : S, (afterBlk t i b).allCount = t.allCount := by
      intro t; cases b <;> simp only [afterBlk] <;> (repeat' split) <;> simp
    by_cases hb : b = .relock
    · subst hb
      have hall := hal (preBlk (unpause s i) i .relock)
      have hnx := nx_afterBlk (preBlk (unpause s i) i .relock) i .relock
      revert hall hnx
      simp only [afterBlk]
      split
      · intro hall hnx; exact h.same (by simp) (by simp; exact rl_of (by simp [preBlk])) (by simp [preBlk, unpause]; split <;> simp)
      · split
        · intro hall hnx; exact h.cons (e := .kill i false) (by simp) (by simp [Ev.rare]; exact rl_of (by simp [preBlk])) (by simp) rfl rfl
        · intro hall hnx; exact h.same (by simp) (by simp; exact rl_of (by simp [preBlk])) (by simp)
    · exact h.same (by rw [hal]; simp) (by rw [rl_afterBlk _ _ _ hb]; simp) (by simp)
  · split at hs
    · cases hs
      unfold doCancel; dsimp only; (repeat' split)
      · exact h.same (by simp) (by simp) (by simp)
      · exact h.same (by simp) (by simp) (by simp)
      · exact h.cons (e := .cancel i _) (by simp) (by simp [Ev.rare]; rfl) (by simp) rfl rfl
      · exact h.same (by simp) (by simp) (by simp)
    · cases hs; exact h.same rfl (rl_of rfl) rfl
  · split at hs
    · cases hs
      unfold doRelock; (repeat' split)
      · exact h.same (by simp) (by simp [Ev.rare]) (by simp)
      · exact h.cons (e := .kill i false) (by simp) (by simp [Ev.rare]) (by simp) rfl rfl
      · exact h.same (by simp) (by simp) (by simp)
      · exact h.same (by simp) (by simp) (by simp)
    · cases hs; exact h.same rfl (rl_of rfl) rfl
  · cases hs; exact h.same (by simp) (rl_of (by simp)) (by simp)
  · cases hs
    unfold doExit; (repeat' split)
    · exact h.cons (e := .clean i _) (by simp) (by simp [Ev.rare]; rfl) (by simp) rfl rfl
    · exact exitNotify_invAc h i _
    · exact exitNotify_invAc h i _

theorem tauMain_invAc {s s' : S} (h : InvAc s) (hs : tauMain s = some s') : InvAc s' := by
  have ha : s'.allCount = s.allCount := by
    unfold tauMain at hs; (repeat' split at hs) <;> cases hs <;> simp
  have hn : s'.sco.nextId = s.sco.nextId := by
    unfold tauMain at hs; (repeat' split at hs) <;> cases hs <;> simp
  rcases tauMain_rl hs with h1 | h1
  · exact h.same ha h1 hn
  · exact h.cons ha h1 hn rfl rfl

theorem InvAc.step {s s' : S} {a : Act} (h : InvAc s) (hs : Rt.step s a = some s') : InvAc s' := by
  unfold Rt.step at hs
  split at hs
  · cases hs
  cases a with
  | call c =>
    simp only at hs
    split at hs
    · cases hs
    rename_i i hc
    split at hs <;> cases hs
    exact doCall_invAc (s := upd (note s (.call i c)) i (fun k => { k with call := c })) (h.cons (e := .call i c) (by simp) (by simp [Ev.rare]) rfl rfl rfl) i c
  | finish =>
    simp only at hs
    split at hs
    · cases hs
    split at hs <;> cases hs
    exact h.same (by simp) (by simp) (by simp)
  | tau =>
    simp only at hs
    split at hs
    · exact tauCo_invAc h hs
    · exact tauMain_invAc h hs
  | submit ok =>
    simp only at hs
    split at hs
    · cases hs
    (repeat' split at hs) <;> cases hs <;> exact h.same (by simp) (rl_of (by simp)) (by simp)
  | events evs =>
    simp only at hs
    split at hs
    · cases hs
      split
      · exact h.same (by simp) ((rl_of rfl).trans (rl_mEvents _ _)) (by simp)
      · exact h.same rfl (rl_of rfl) rfl
    · cases hs
  | clock t => simp only at hs; split at hs <;> cases hs; exact h.same rfl (rl_of rfl) rfl
  | signal n =>
    simp only at hs; (repeat' split at hs) <;> cases hs <;>
      exact h.cons (e := .sig n) rfl (by simp [rl, note, Ev.rare, List.filter_cons]) rfl rfl rfl
  | wdone i =>
    simp only at hs; split at hs <;> cases hs
    exact h.cons (e := .wdone i) rfl (by simp only [rl, push, setList, rm, List.filter_cons, List.filter_append, filter_leave_nil (s := s) (i := i) (p := Ev.rare) (fun c => rfl)]; simp [Ev.rare]) rfl rfl rfl

theorem init_invAc (a e : Bool) : InvAc (init a e) := by
  refine ⟨?_⟩; rfl

theorem reach_invAc {ok} {s : S} (h : Reach ok s) : InvAc s := by
  induction h with
  | init a e => exact init_invAc a e
  | step _ a _ hs ih => exact ih.step hs

theorem exits_filter (l : List Ev) : exits (l.filter Ev.rare) = exits l := by
  induction l with
  | nil => rfl
  | cons e l ih => cases e <;> simp [Ev.rare, exits, List.filter_cons, ih]

theorem allCount_eq {ok} {s : S} (r : Reach ok s) : s.allCount = (starts s.log).length - (exits s.log).length := by
  rw [(reach_invAc r).al]; unfold rl; rw [exits_filter, starts_filter]

theorem endsOnce_filter (l : List Ev) : EndsOnce (l.filter Ev.rare) ↔ EndsOnce l := by
  induction l with
  | nil => rfl
  | cons e l ih => cases e <;> simp [Ev.rare, EndsOnce, List.filter_cons, ih]

theorem endsOnce_append {x l : List Ev} (h : EndsOnce (x ++ l)) : EndsOnce l := by
  induction x with
  | nil => exact h
  | cons e x ih => cases e <;> first | exact ih h | exact ih h.2

theorem mem_exits {l : List Ev} {k : Nat} : k ∈ exits l ↔ .exit k ∈ l := by
  induction l with
  | nil => simp [exits]
  | cons e l ih => cases e <;> simp [exits, ih]

theorem exits_append (x l : List Ev) : exits (x ++ l) = exits x ++ exits l := by
  induction x with
  | nil => rfl
  | cons e x ih => cases e <;> simp [exits, ih]

theorem live_of {l : List Ev} {k : Nat} (h : k ∈ starts l) (hx : .exit k ∉ l) : k ∈ live l := by
  induction l with
  | nil => cases h
  | cons e l ih =>
    cases e <;> simp only [starts, live, List.mem_cons, not_or, List.mem_filter, decide_eq_true_eq] at h hx ⊢ <;> try exact ih h hx.2
    · rcases h with h | h
      · exact .inl h
      · exact .inr (ih h hx.2)
    · exact ⟨ih h hx.2, fun e => hx.1 (by rw [e])⟩

theorem live_sublist (l : List Ev) : (live l).Sublist (starts l) := by
  induction l with
  | nil => exact .slnil
  | cons e l ih =>
    cases e <;> simp only [starts, live] <;> try exact ih
    · exact ih.cons_cons _
    · exact List.filter_sublist.trans ih

theorem length_filter_ne {l : List Nat} {k : Nat} (hn : l.Nodup) (h : k ∈ l) : (l.filter (fun j => decide (j ≠ k))).length + 1 = l.length := by
  induction l with
  | nil => cases h
  | cons a l ih =>
    have hn' := List.nodup_cons.mp hn
    by_cases e : a = k
    · subst e
      rw [List.filter_cons_of_neg (by simp), List.filter_eq_self.mpr (fun j hj => by simp; intro e; exact hn'.1 (e ▸ hj))]; rfl
    · rw [List.filter_cons_of_pos (by simp [e])]
      simp only [List.length_cons]
      rw [ih hn'.2 (by rcases List.mem_cons.mp h with h | h; exact absurd h.symm e; exact h)]

/-- who has gone through the end stays there, unless terminated again -/
structure InvOnce (s : S) : Prop where
  go : s.fault = false → EndsOnce (rl s) → ∀ j, .exit j ∈ rl s → (s.co j).pc.gone = true
  nd : s.fault = false → EndsOnce (rl s) → (live (rl s)).length + (exits (rl s)).length = (starts (rl s)).length

theorem exitNotify_gone {s : S} {i : Nat} {a : Bool} (hf : (exitNotify s i a).fault = false) : ((exitNotify s i a).co i).pc.gone = true := by
  revert hf
  unfold exitNotify; dsimp only; (repeat' split)
  · intro _; rw [pc_setPc]; rfl
  · intro hf; simp at hf
  · intro _; rw [pc_setPc]; rfl
  · intro _
    unfold chanClose1; dsimp only; split
    · rw [pc_setPc]; rfl
    · rw [(pc_yfsr ..).choose_spec]; rfl

theorem reach_invOnce {ok} {s : S} (r : Reach ok s) : InvOnce s := by
  induction r with
  | init a e =>
    have : rl (init a e) = [.start none 1] := rfl
    refine ⟨fun _ _ j h => ?_, fun _ _ => ?_⟩ <;> rw [this] at *
    · simp at h
    · rfl
  | @step s s' r a hok hs ih =>
    obtain ⟨es, hes, hr⟩ := step_rl hs
    have hf0 := step_nofault hs
    have hA := reach_invA r
    have hw := reach_scoWF r
    have hE := reach_invE r
    refine ⟨fun hf he j h => ?_, fun hf he => ?_⟩
    · rw [hes] at he
      have he0 := endsOnce_append he
      by_cases h0 : .exit j ∈ rl s
      · have hg := ih.go hf0 he0 j h0
        cases step_pcs r hs j with
        | same h => rw [h]; exact hg
        | new ha hj h => have := hE.le j ((mem_rl rfl).mp h0); omega
        | call c ha hc hu h => rw [hu] at hg; cases hg
        | finish ha hc hu h => rw [hu] at hg; cases hg
        | submit ha hc hp h => rw [hp] at hg; cases hg
        | tau ha hc ht =>
          have hx := tauCo_exiting ht (by cases hp : (s.co j).pc <;> rw [hp] at hg <;> first | cases hg; done | exact hg)
          by_cases hk : ∃ x, (s'.co j).pc = .exitRun x
          · exfalso
            obtain ⟨x, hk⟩ := hk
            subst ha
            have hr' := hr
            unfold tauCo at ht
            split at ht <;> rename_i e <;> rw [e] at hg <;> try (cases hg; done)
            · cases ht
            · (repeat' split at ht) <;> cases ht
              · rename_i hk2
                have : es = [.kill j true] := by
                  have h2 : rl (setPc (note s (.kill j true)) j (.exitRun true)) = [.kill j true] ++ rl s := by simp [Ev.rare]
                  rw [h2] at hes; exact (List.append_cancel_right hes).symm
                rw [this] at he
                exact he.1 h0
              · rw [pc_setPc] at hk; cases hk
              · rw [pc_coyield] at hk; cases hk
            · cases ht; rw [pc_coyield] at hk; cases hk
            · cases ht
              rename_i b
              cases b with
              | ret v => cases hg
              | condEnq => cases hg
              | genRel x y =>
                simp only [doAft] at hk; split at hk
                · rw [pc_setPc] at hk; cases hk
                · simp only [e] at hk; cases hk
              | exitTail x y =>
                simp only [doAft] at hk; split at hk
                · rw [(pc_yfsr ..).choose_spec] at hk; cases hk
                · rw [pc_setPc] at hk; cases hk
              | fin x => simp only [doAft, doFin] at hk; rw [pc_setPc] at hk; cases hk
          · cases hp : (s'.co j).pc <;> rw [hp] at hx hk <;> first | cases hx; done | exact hx | exact absurd ⟨_, rfl⟩ hk
      · rcases step_exitEv hs ((mem_rl rfl).mp h) with h | ⟨ha, hc, x, hp, hx⟩
        · exact absurd ((mem_rl rfl).mpr h) h0
        · rw [hx] at hf ⊢; exact exitNotify_gone hf
    · rw [hes] at he ⊢
      have he0 := endsOnce_append he
      have hn := ih.nd hf0 he0
      cases hr with
      | start c i hc _ h => simp [live, exits, starts]; omega
      | tau i hc es h =>
        cases h with
        | exit a hp hq =>
          have hm : .exit i ∉ rl s := fun hm => by have := ih.go hf0 he0 i hm; rw [hp] at this; cases this
          have hi := cur_le hw hc
          have hl := live_of (l := rl s) (k := i) (by rw [rl, starts_filter]; exact (mem_starts r).mpr hi) hm
          have hnd : (live (rl s)).Nodup := (live_sublist _).nodup (by rw [rl, starts_filter]; exact starts_nodup r)
          have := length_filter_ne hnd hl
          simp only [List.cons_append, List.nil_append, live, exits, starts, List.length_cons]; omega
        | _ => simpa [live, exits, starts] using hn
      | _ => simpa [live, exits, starts] using hn

/-- the count is the number of live coroutines -/
theorem allCount_live {ok} {s : S} (r : Reach ok s) (hf : s.fault = false) (he : EndsOnce s.log) : s.allCount = (live s.log).length := by
  have := (reach_invOnce r).nd hf ((endsOnce_filter _).mpr he)
  unfold rl at this; rw [live_filter, exits_filter, starts_filter] at this
  rw [allCount_eq r]; omega

/-! ## The kinds of waiting and the calls -/

theorem kind_wk {ok} {s : S} (r : Reach ok s) (hf : s.fault = false) (i : Nat) (hw : inWait s i = true) : kindOf s i = (s.co i).pc.wk := by
  have hN := (reach_invN r hf i).ft
  have hF := (reach_invF r).cf i
  have key : ∀ k, (s.co i).call.wk = k → (s.co i).call ≠ .none → (pending i s.log).bind Call.wk = k := by
    intro k h1 h2; rw [(pending_call r).mpr ⟨rfl, h2⟩]; exact h1
  unfold inWait at hw
  unfold kindOf
  cases hpc : (s.co i).pc <;> rw [hpc] at hw <;> try (cases hw; done)
  · rename_i b
    obtain ⟨dl, hb, _⟩ := hF.bc b hpc
    cases b with
    | relock => rfl
    | lock x =>
      rw [if_neg (by simp)]
      refine key _ ?_ ?_ <;> cases x <;> obtain ⟨_, h⟩ := hb <;> rw [h] <;> first | rfl | simp
    | send => rw [if_neg (by simp)]; rcases hb with ⟨_, _, h⟩ | ⟨_, h⟩ <;> exact key _ (by rw [h]; rfl) (by rw [h]; simp)
    | _ => rw [if_neg (by simp)]; first
            | (obtain ⟨_, _, h⟩ := hb; exact key _ (by rw [h]; rfl) (by rw [h]; simp))
            | (obtain ⟨_, h⟩ := hb; exact key _ (by rw [h]; rfl) (by rw [h]; simp))
            | (exact key _ (by rw [show _ = _ from hb]; rfl) (by rw [show _ = _ from hb]; simp))
  all_goals
    unfold fits at hN; rw [hpc] at hN
    rw [if_neg (by simp)]
    exact key _ (by rw [show _ = _ from hN]; rfl) (by rw [show _ = _ from hN]; simp)

theorem wk_wait {s : S} {i : Nat} {k : Wk} (h : (s.co i).pc.wk = some k) : inWait s i = true := by
  unfold inWait; cases hp : (s.co i).pc <;> rw [hp] at h <;> first | rfl | cases h

theorem stat_waiting {ok} {s : S} (r : Reach ok s) (hf : s.fault = false) (k : Wk) : statOf s k = waiting s k := by
  have := reach_invCt r hf k
  rw [sumTo_countP] at this
  rw [show statOf s k = ct k s from rfl, this]
  unfold waiting
  congr 2
  funext i
  by_cases hw : inWait s i = true
  · rw [hw, kind_wk r hf i hw]; simp
  · have : (s.co i).pc.wk ≠ some k := fun h => hw (wk_wait h)
    simp at hw; simp [hw, this]

end Neco.Rt
