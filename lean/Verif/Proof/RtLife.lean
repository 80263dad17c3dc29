import Verif.Proof.RtStat
import Verif.Proof.RtFlag2
import Verif.Proof.RtLog
import Verif.Spec.Rt
/-!
# Births, deaths and calls in the history
-/
namespace Neco.Rt
open Neco.Err

/-! ## The identifier counter changes only when a coroutine is started -/

@[simp] theorem nx_copause (s : S) (i : Nat) (dl : Int) (b : Blk) : (copause s i dl b).sco.nextId = s.sco.nextId := nextId_copause ..

@[simp] theorem nx_coyield (s : S) (i n : Nat) (a : Aft) : (coyield s i n a).sco.nextId = s.sco.nextId := by
  unfold coyield; (try dsimp only); (repeat' split) <;> simp
@[simp] theorem nx_yfsr (s : S) (i n : Nat) (a : Aft) : (yfsr s i n a).sco.nextId = s.sco.nextId := by
  unfold yfsr; (try dsimp only); (repeat' split) <;> simp
@[simp] theorem nx_scoResume (s : S) (i : Nat) : (scoResume s i).sco.nextId = s.sco.nextId := by
  unfold scoResume; (try dsimp only); (repeat' split) <;> simp
@[simp] theorem nx_sendRest (s : S) (i c : Nat) (m : Msg) (dl : Int) (ch : Chan) : (sendRest s i c m dl ch).sco.nextId = s.sco.nextId := by
  unfold sendRest; (try dsimp only); (repeat' split) <;> simp
@[simp] theorem nx_chanSend (s : S) (i c : Nat) (m : Msg) (dl : Int) : (chanSend s i c m dl).sco.nextId = s.sco.nextId := by
  unfold chanSend; (try dsimp only); (repeat' split) <;> simp
@[simp] theorem nx_chanBcast (s : S) (i c : Nat) (m : Msg) : (chanBcast s i c m).sco.nextId = s.sco.nextId := by
  unfold chanBcast; (try dsimp only); (repeat' split) <;> simp
@[simp] theorem nx_resumeOpt (s : S) (r : Option Nat) : (resumeOpt s r).sco.nextId = s.sco.nextId := by
  unfold resumeOpt; (try dsimp only); (repeat' split) <;> simp
@[simp] theorem nx_chanClose1 (s : S) (i c : Nat) (ch : Chan) (a : Aft) : (chanClose1 s i c ch a).sco.nextId = s.sco.nextId := by
  unfold chanClose1; (try dsimp only); (repeat' split) <;> simp
@[simp] theorem nx_chanClose (s : S) (i c : Nat) : (chanClose s i c).sco.nextId = s.sco.nextId := by
  unfold chanClose; (try dsimp only); (repeat' split) <;> simp
@[simp] theorem nx_finishLock (s : S) (i m : Nat) (rd : Bool) (dl : Int) (b : Blk) : (finishLock s i m rd dl b).sco.nextId = s.sco.nextId := by
  unfold finishLock; (try dsimp only); (repeat' split) <;> simp
@[simp] theorem nx_muLock (s : S) (i m : Nat) (dl : Int) : (muLock s i m dl).sco.nextId = s.sco.nextId := by
  unfold muLock; (try dsimp only); (repeat' split) <;> simp
@[simp] theorem nx_muRdlock (s : S) (i m : Nat) (dl : Int) : (muRdlock s i m dl).sco.nextId = s.sco.nextId := by
  unfold muRdlock; (try dsimp only); (repeat' split) <;> simp
@[simp] theorem nx_muUnlock (s : S) (i m : Nat) : (muUnlock s i m).sco.nextId = s.sco.nextId := by
  unfold muUnlock; (try dsimp only); (repeat' split) <;> simp
@[simp] theorem nx_wgDone (s : S) (i w : Nat) : (wgDone s i w).sco.nextId = s.sco.nextId := by
  unfold wgDone; (try dsimp only); (repeat' split) <;> simp
@[simp] theorem nx_wgWait (s : S) (i w : Nat) (dl : Int) : (wgWait s i w dl).sco.nextId = s.sco.nextId := by
  unfold wgWait; (try dsimp only); (repeat' split) <;> simp
@[simp] theorem nx_cvSignal (s : S) (i v : Nat) : (cvSignal s i v).sco.nextId = s.sco.nextId := by
  unfold cvSignal; (try dsimp only); (repeat' split) <;> simp
@[simp] theorem nx_cvBcast (s : S) (i v : Nat) : (cvBcast s i v).sco.nextId = s.sco.nextId := by
  unfold cvBcast; (try dsimp only); (repeat' split) <;> simp
@[simp] theorem nx_cvEnq (s : S) (i v : Nat) (dl : Int) : (cvEnq s i v dl).sco.nextId = s.sco.nextId := by
  unfold cvEnq; (try dsimp only); (repeat' split) <;> simp
@[simp] theorem nx_cvWait (s : S) (i v m : Nat) (dl : Int) : (cvWait s i v m dl).sco.nextId = s.sco.nextId := by
  unfold cvWait; (try dsimp only); (repeat' split) <;> simp
@[simp] theorem nx_doSleep (s : S) (i : Nat) (dl : Int) : (doSleep s i dl).sco.nextId = s.sco.nextId := by
  unfold doSleep; (try dsimp only); (repeat' split) <;> simp
@[simp] theorem nx_doJoin (s : S) (i id : Nat) (dl : Int) : (doJoin s i id dl).sco.nextId = s.sco.nextId := by
  unfold doJoin; (try dsimp only); (repeat' split) <;> simp
@[simp] theorem nx_doSuspend (s : S) (i : Nat) (dl : Int) : (doSuspend s i dl).sco.nextId = s.sco.nextId := by
  unfold doSuspend; (try dsimp only); (repeat' split) <;> simp
@[simp] theorem nx_doResume (s : S) (i id : Nat) : (doResume s i id).sco.nextId = s.sco.nextId := by
  unfold doResume; (try dsimp only); (repeat' split) <;> simp
@[simp] theorem nx_doCancel (s : S) (i id : Nat) (dl : Int) : (doCancel s i id dl).sco.nextId = s.sco.nextId := by
  unfold doCancel; (try dsimp only); (repeat' split) <;> simp
@[simp] theorem nx_doSigWait (s : S) (i : Nat) (dl : Int) : (doSigWait s i dl).sco.nextId = s.sco.nextId := by
  unfold doSigWait; (try dsimp only); (repeat' split) <;> simp
@[simp] theorem nx_doWait (s : S) (i fd : Nat) (wr : Bool) (dl : Int) : (doWait s i fd wr dl).sco.nextId = s.sco.nextId := by
  unfold doWait; (try dsimp only); (repeat' split) <;> simp
@[simp] theorem nx_doGenYield (s : S) (i : Nat) (m : Msg) (dl : Int) : (doGenYield s i m dl).sco.nextId = s.sco.nextId := by
  unfold doGenYield; (try dsimp only); (repeat' split) <;> simp
@[simp] theorem nx_doRelock (s : S) (i m : Nat) : (doRelock s i m).sco.nextId = s.sco.nextId := by
  unfold doRelock; (try dsimp only); (repeat' split) <;> simp
@[simp] theorem nx_doFin (s : S) (i : Nat) (a : Bool) : (doFin s i a).sco.nextId = s.sco.nextId := by
  unfold doFin; (try dsimp only); (repeat' split) <;> simp
@[simp] theorem nx_wakeAll (s : S) (q : List Nat) : (wakeAll s q).sco.nextId = s.sco.nextId := by
  induction q generalizing s with
  | nil => rfl
  | cons n q ih => simp [wakeAll, ih]
@[simp] theorem nx_mResume (s : S)  : (mResume s).sco.nextId = s.sco.nextId := by
  unfold mResume; (try dsimp only); (repeat' split) <;> simp
@[simp] theorem nx_mIo (s : S)  : (mIo s).sco.nextId = s.sco.nextId := by
  unfold mIo; (try dsimp only); (repeat' split) <;> simp
@[simp] theorem nx_mEvent (s : S) (e : Nat × Bool × Bool) : (mEvent s e).sco.nextId = s.sco.nextId := by
  unfold mEvent; (try dsimp only); (repeat' split) <;> simp
@[simp] theorem nx_mEvents (s : S) (q : List (Nat × Bool × Bool)) : (mEvents s q).sco.nextId = s.sco.nextId := by
  induction q generalizing s with
  | nil => rfl
  | cons n q ih => simp [mEvents, ih]
@[simp] theorem nx_mSig (s : S)  : (mSig s).sco.nextId = s.sco.nextId := by
  unfold mSig; (try dsimp only); (repeat' split) <;> simp
@[simp] theorem nx_mDl (s : S)  : (mDl s).sco.nextId = s.sco.nextId := by
  unfold mDl; (try dsimp only); (repeat' split) <;> simp
@[simp] theorem nx_chanRecv (s : S) (i c : Nat) (t : Bool) (dl : Int) : (chanRecv s i c t dl).sco.nextId = s.sco.nextId := by
  unfold chanRecv; dsimp only; (repeat' split) <;> first | (rename_i h; simp [recvNow_sco h]; done) | simp
@[simp] theorem nx_chanSelect (s : S) (i : Nat) (cs : List Nat) (dl : Int) (t : Bool) : (chanSelect s i cs dl t).sco.nextId = s.sco.nextId := by
  unfold chanSelect; dsimp only; (repeat' split) <;> first | (rename_i h; simp [recvNow_sco h]; done) | simp
@[simp] theorem nx_exitNotify (s : S) (i : Nat) (a : Bool) : (exitNotify s i a).sco.nextId = s.sco.nextId := by
  unfold exitNotify; dsimp only; (repeat' split) <;> simp
@[simp] theorem nx_doExit (s : S) (i : Nat) (a : Bool) : (doExit s i a).sco.nextId = s.sco.nextId := by
  unfold doExit; (repeat' split) <;> simp
@[simp] theorem nx_doAft (s : S) (i : Nat) (a : Aft) : (doAft s i a).sco.nextId = s.sco.nextId := by
  unfold doAft; (repeat' split) <;> simp
@[simp] theorem nx_afterBlk (s : S) (i : Nat) (b : Blk) : (afterBlk s i b).sco.nextId = s.sco.nextId := by
  cases b <;> simp only [afterBlk] <;> (repeat' split) <;> simp
@[simp] theorem nx_doRet (s : S) (i : Nat) (v : Int) : (doRet s i v).sco.nextId = s.sco.nextId := by
  unfold doRet; split <;> simp

/-! ## The live coroutines according to the history -/

theorem live_filter (l : List Ev) : live (l.filter Ev.rare) = live l := by
  induction l with
  | nil => rfl
  | cons e l ih => cases e <;> simp [Ev.rare, live, List.filter_cons, ih]

theorem starts_filter (l : List Ev) : starts (l.filter Ev.rare) = starts l := by
  induction l with
  | nil => rfl
  | cons e l ih => cases e <;> simp [Ev.rare, starts, List.filter_cons, ih]

/-- identifiers, counter and history agree -/
structure InvA (s : S) : Prop where
  al : s.all = live (rl s)
  st : starts (rl s) = (List.range' 1 s.sco.nextId).reverse

theorem InvA.same {s t : S} (h : InvA s) (ha : t.all = s.all) (hr : rl t = rl s) (hn : t.sco.nextId = s.sco.nextId) : InvA t :=
  ⟨by rw [ha, hr]; exact h.al, by rw [hr, hn]; exact h.st⟩

/-- one event that is neither a birth nor a death -/
theorem InvA.cons {s t : S} (h : InvA s) {e : Ev} (ha : t.all = s.all) (hr : rl t = e :: rl s) (hn : t.sco.nextId = s.sco.nextId)
    (h1 : live (e :: rl s) = live (rl s)) (h2 : starts (e :: rl s) = starts (rl s)) : InvA t :=
  ⟨by rw [ha, hr, h1]; exact h.al, by rw [hr, hn, h2]; exact h.st⟩

macro "nxt" : tactic => `(tactic| first | rfl | (simp; done) | (dsimp only; (repeat' split) <;> simp; done))

theorem doStart_invA {s : S} (h : InvA s) (i : Nat) (g : Option Nat) : InvA (doStart s i g) := by
  refine ⟨?_, ?_⟩
  · rw [rl_doStart]; simp [live, doStart, h.al]
  · rw [rl_doStart]
    simp [doStart, starts, h.st, List.range'_concat, Nat.add_comm]

theorem doCall_invA {s : S} (h : InvA s) (i : Nat) (c : Call) : InvA (doCall s i c) := by
  by_cases hc : c = .start ∨ c = .genStart
  · rcases hc with rfl | rfl
    · exact doStart_invA h i _
    · simp only [doCall, doGenStart]; apply doStart_invA; exact h.same rfl (rl_of rfl) rfl
  · have ha : (doCall s i c).all = s.all := by
      cases c <;> simp [doCall] at hc ⊢ <;> (try split) <;> simp
    have hn : (doCall s i c).sco.nextId = s.sco.nextId := by
      cases c <;> simp [doCall] at hc ⊢ <;> (try split) <;> simp
    rcases rl_doCall s i c with h1 | ⟨x, q, h1, h2, h3⟩
    · rw [if_neg hc] at h1; exact h.same ha h1 hn
    · exact h.cons ha h3 hn rfl rfl

theorem exitNotify_all (s : S) (i : Nat) (a : Bool) : (exitNotify s i a).all = s.all.filter (fun j => decide (j ≠ i)) := by
  unfold exitNotify; dsimp only; (repeat' split) <;> simp

theorem exitNotify_invA {s : S} (h : InvA s) (i : Nat) (a : Bool) : InvA (exitNotify s i a) :=
  ⟨by rw [exitNotify_all, rl_exitNotify, h.al]; rfl, by rw [rl_exitNotify, nx_exitNotify]; exact h.st⟩

theorem tauCo_invA {s s' : S} (h : InvA s) {i : Nat} (hs : tauCo s i = some s') : InvA s' := by
  unfold tauCo at hs
  split at hs
  · cases hs
  · cases hs
  · cases hs
  · cases hs
    unfold doRet; split
    · exact h.cons (e := .kill i false) (by simp) (by simp [Ev.rare]) (by simp) rfl rfl
    · exact h.cons (e := .ret i (s.co i).call _ (s.co i).rdat) (by simp) (by simp [Ev.rare]; rfl) (by simp) rfl rfl
  · split at hs
    · cases hs; exact h.cons (e := .kill i true) (by simp) (by simp [Ev.rare]) (by simp) rfl rfl
    · split at hs <;> cases hs <;> exact h.same (by simp) (by simp) (by simp)
  · cases hs; exact h.same (by simp) (by simp) (by simp)
  · rename_i a _
    cases hs; exact h.same (by simp) (rl_doAft _ _ _) (by simp)
  · cases hs; exact h.same (by simp) (rl_of (by simp)) (by simp)
  · rename_i b e
    cases hs
    have hal : ∀ t : S, (afterBlk t i b).all = t.all := by
      intro t; cases b <;> simp only [afterBlk] <;> (repeat' split) <;> simp
    by_cases hb : b = .relock
    · subst hb
      have hall := hal (preBlk (unpause s i) i .relock)
      have hnx := nx_afterBlk (preBlk (unpause s i) i .relock) i .relock
      revert hall hnx
      simp only [afterBlk]
      split
      · intro hall hnx; exact h.same (by simp) (by simp; exact rl_of (by simp [preBlk])) (by simp [preBlk, unpause]; split <;> simp)
      · split
        · intro hall hnx; exact h.cons (e := .kill i false) (by simp) (by simp [Ev.rare]; exact rl_of (by simp [preBlk])) (by simp) rfl rfl
        · intro hall hnx; exact h.same (by simp) (by simp; exact rl_of (by simp [preBlk])) (by simp)
    · exact h.same (by rw [hal]; simp) (by rw [rl_afterBlk _ _ _ hb]; simp) (by simp)
  · split at hs
    · cases hs
      unfold doCancel; dsimp only; (repeat' split)
      · exact h.same (by simp) (by simp) (by simp)
      · exact h.same (by simp) (by simp) (by simp)
      · exact h.cons (e := .cancel i _) (by simp) (by simp [Ev.rare]; rfl) (by simp) rfl rfl
      · exact h.same (by simp) (by simp) (by simp)
    · cases hs; exact h.same rfl (rl_of rfl) rfl
  · split at hs
    · cases hs
      unfold doRelock; (repeat' split)
      · exact h.same (by simp) (by simp [Ev.rare]) (by simp)
      · exact h.cons (e := .kill i false) (by simp) (by simp [Ev.rare]) (by simp) rfl rfl
      · exact h.same (by simp) (by simp) (by simp)
      · exact h.same (by simp) (by simp) (by simp)
    · cases hs; exact h.same rfl (rl_of rfl) rfl
  · cases hs; exact h.same (by simp) (rl_of (by simp)) (by simp)
  · cases hs
    unfold doExit; (repeat' split)
    · exact h.cons (e := .clean i _) (by simp) (by simp [Ev.rare]; rfl) (by simp) rfl rfl
    · exact exitNotify_invA h i _
    · exact exitNotify_invA h i _

theorem tauMain_invA {s s' : S} (h : InvA s) (hs : tauMain s = some s') : InvA s' := by
  have ha : s'.all = s.all := by
    unfold tauMain at hs; (repeat' split at hs) <;> cases hs <;> simp
  have hn : s'.sco.nextId = s.sco.nextId := by
    unfold tauMain at hs; (repeat' split at hs) <;> cases hs <;> simp
  rcases tauMain_rl hs with h1 | h1
  · exact h.same ha h1 hn
  · exact h.cons ha h1 hn rfl rfl

theorem InvA.step {s s' : S} {a : Act} (h : InvA s) (hs : Rt.step s a = some s') : InvA s' := by
  unfold Rt.step at hs
  split at hs
  · cases hs
  cases a with
  | call c =>
    simp only at hs
    split at hs
    · cases hs
    rename_i i hc
    split at hs <;> cases hs
    exact doCall_invA (s := upd (note s (.call i c)) i (fun k => { k with call := c })) (h.cons (e := .call i c) (by simp) (by simp [Ev.rare]) rfl rfl rfl) i c
  | finish =>
    simp only at hs
    split at hs
    · cases hs
    split at hs <;> cases hs
    exact h.same (by simp) (by simp) (by simp)
  | tau =>
    simp only at hs
    split at hs
    · exact tauCo_invA h hs
    · exact tauMain_invA h hs
  | submit ok =>
    simp only at hs
    split at hs
    · cases hs
    (repeat' split at hs) <;> cases hs <;> exact h.same (by simp) (rl_of (by simp)) (by simp)
  | events evs =>
    simp only at hs
    split at hs
    · cases hs
      split
      · exact h.same (by simp) ((rl_of rfl).trans (rl_mEvents _ _)) (by simp)
      · exact h.same rfl (rl_of rfl) rfl
    · cases hs
  | clock t => simp only at hs; split at hs <;> cases hs; exact h.same rfl (rl_of rfl) rfl
  | signal n =>
    simp only at hs; (repeat' split at hs) <;> cases hs <;>
      exact h.cons (e := .sig n) rfl (by simp [rl, note, Ev.rare, List.filter_cons]) rfl rfl rfl
  | wdone i =>
    simp only at hs; split at hs <;> cases hs
    exact h.cons (e := .wdone i) rfl (by simp only [rl, push, setList, rm, List.filter_cons, List.filter_append, filter_leave_nil (s := s) (i := i) (p := Ev.rare) (fun c => rfl)]; simp [Ev.rare]) rfl rfl rfl

theorem init_invA (a e : Bool) : InvA (init a e) := by
  refine ⟨?_, ?_⟩ <;> rfl

theorem reach_invA {ok} {s : S} (h : Reach ok s) : InvA s := by
  induction h with
  | init a e => exact init_invA a e
  | step _ a _ hs ih => exact ih.step hs

/-! ## The call a coroutine is in, according to the history -/

/-- the last call of `j` in the history is the one it is executing -/
def CallIn (j : Nat) (s : S) : Prop :=
  (s.co j).call ≠ .none → ∃ a b, rl s = a ++ .call j (s.co j).call :: b ∧ ∀ e ∈ a, isCallOf j e = false

theorem stat_call {k l : Co} (h : stat k = stat l) : k.call = l.call := by simp only [stat, Prod.mk.injEq] at h; exact h.1
theorem stat_starter {k l : Co} (h : stat k = stat l) : k.starterid = l.starterid := by simp only [stat, Prod.mk.injEq] at h; exact h.2.1
theorem stat_last {k l : Co} (h : stat k = stat l) : k.lastid = l.lastid := by simp only [stat, Prod.mk.injEq] at h; exact h.2.2.1
theorem stat_async {k l : Co} (h : stat k = stat l) : k.async = l.async := by simp only [stat, Prod.mk.injEq] at h; exact h.2.2.2.1
theorem stat_enabled {k l : Co} (h : stat k = stat l) : k.enabled = l.enabled := by simp only [stat, Prod.mk.injEq] at h; exact h.2.2.2.2.1
theorem stat_cleanup {k l : Co} (h : stat k = stat l) : k.cleanup = l.cleanup := by simp only [stat, Prod.mk.injEq] at h; exact h.2.2.2.2.2.1
theorem stat_sigwatch {k l : Co} (h : stat k = stat l) : k.sigwatch = l.sigwatch := by simp only [stat, Prod.mk.injEq] at h; exact h.2.2.2.2.2.2.1

theorem callStat_call (s : S) (i : Nat) (c : Call) (k : Co) : (callStat s i c k).call = k.call := by
  unfold callStat; split <;> (try split) <;> rfl
theorem callStat_starter (s : S) (i : Nat) (c : Call) (k : Co) : (callStat s i c k).starterid = k.starterid := by
  unfold callStat; split <;> (try split) <;> rfl

theorem CallIn.step {s s' : S} {a : Act} {j : Nat} (h : CallIn j s) (hw : Sco.WF s.sco) (hs : Rt.step s a = some s') : CallIn j s' := by
  obtain ⟨es, h1, h2⟩ := step_rl hs
  intro hne
  have ext : (s'.co j).call = (s.co j).call → (∀ e ∈ es, isCallOf j e = false) → ∃ a b, rl s' = a ++ .call j (s'.co j).call :: b ∧ ∀ e ∈ a, isCallOf j e = false := by
    intro he hes
    rw [he] at hne ⊢
    obtain ⟨a, b, h3, h4⟩ := h hne
    refine ⟨es ++ a, b, by rw [h1, h3, List.append_assoc], ?_⟩
    intro e hm
    rcases List.mem_append.mp hm with hm | hm
    · exact hes e hm
    · exact h4 e hm
  have hes : (∀ c, a = .call c → s.sco.cur ≠ some j) → ∀ e ∈ es, isCallOf j e = false := by
    intro hn e he
    cases h2 with
    | call c i hc hp _ _ _ => 
      have := hn c rfl; rw [hc] at this
      simp at he; subst he; simp [isCallOf]; intro e; exact this (by rw [e])
    | start c i hc hp _ =>
      have := hn c rfl; rw [hc] at this
      simp at he; rcases he with he | he <;> subst he <;> simp [isCallOf]; intro e; exact this (by rw [e])
    | cpop i hc hp x q _ =>
      have := hn _ rfl; rw [hc] at this
      simp at he; rcases he with he | he <;> subst he <;> simp [isCallOf]; intro e; exact this (by rw [e])
    | tau i hc es h2 => cases h2 <;> simp at he <;> subst he <;> rfl
    | halt => simp at he; subst he; rfl
    | nil => simp at he
    | sig => simp at he; subst he; rfl
    | wdone => simp at he; subst he; rfl
  rcases step_stat hw hs j with ⟨h3, h4⟩ | ⟨c, ha, hc, hp, h3⟩ | ⟨i, g, ha, hi, hj, h3⟩ | ⟨v, ha, hc, hp, h3⟩ | ⟨x, q, ha, hc, hp, hq, h3⟩ | ⟨x, y, ha, hc, hp, h3⟩
  · exact ext (stat_call h3) (hes h4)
  · subst ha
    have hcl : (s'.co j).call = c := by rw [stat_call h3, callStat_call]
    rw [hcl] at hne ⊢
    cases h2 with
    | call c i hc' hp _ _ _ => rw [hc] at hc'; cases hc'; exact ⟨[], rl s, h1, by simp⟩
    | start c i hc' hp _ =>
      rw [hc] at hc'; cases hc'
      exact ⟨[.start (some j) (s.sco.nextId + 1)], rl s, h1, by simp [isCallOf]⟩
    | cpop i hc' hp x q _ =>
      rw [hc] at hc'; cases hc'
      exact ⟨[.clean j x], rl s, h1, by simp [isCallOf]⟩
    | nil _ hn => exact absurd rfl (hn c)
  · rw [h3] at hne
    exact absurd (by unfold newCo; split <;> rfl) hne
  · exact absurd (stat_call h3) hne
  · exact ext ((stat_call h3).trans rfl) (hes (by rw [ha]; simp))
  · exact ext ((stat_call h3).trans rfl) (hes (by rw [ha]; simp))

theorem reach_callIn {ok} {s : S} (h : Reach ok s) (j : Nat) : CallIn j s := by
  induction h with
  | init a e => intro h; exact absurd (by simp only [init]; split <;> rfl) h
  | step hr a _ hs ih => exact ih.step (reach_scoWF hr) hs

/-- splitting a filtered list splits the list -/
theorem filter_split {α} {p : α → Bool} {l a b : List α} {x : α} (h : l.filter p = a ++ x :: b) : ∃ a' b', l = a' ++ x :: b' ∧ a'.filter p = a ∧ b'.filter p = b := by
  obtain ⟨l1, l2, e1, e2, e3⟩ := List.filter_eq_append_iff.mp h
  obtain ⟨m1, m2, e4, e5, e6, e7⟩ := List.filter_eq_cons_iff.mp e3
  refine ⟨l1 ++ m1, m2, by rw [e1, e4]; simp, ?_, e7⟩
  rw [List.filter_append, e2, List.filter_eq_nil_iff.mpr e5]; simp

/-- the history ends with the current call of `j` and what happened since -/
theorem call_since {ok} {s : S} (h : Reach ok s) {j : Nat} (hc : (s.co j).call ≠ .none) : ∃ b, s.log = since j s.log ++ .call j (s.co j).call :: b := by
  obtain ⟨a, b, h1, h2⟩ := reach_callIn h j hc
  obtain ⟨a', b', e1, e2, _⟩ := filter_split h1
  refine ⟨b', ?_⟩
  have hn : ∀ e ∈ a', isCallOf j e = false := by
    intro e he
    cases hr : isCallOf j e with
    | false => rfl
    | true =>
      have : e ∈ a := by
        rw [← e2, List.mem_filter]; refine ⟨he, ?_⟩
        cases e <;> simp_all [isCallOf, Ev.rare]
      rw [h2 e this] at hr; cases hr
  have : since j s.log = a' := by
    rw [e1]; unfold since
    rw [List.takeWhile_append_of_pos (by simpa using hn)]
    simp [isCallOf]
  rw [this]; exact e1

/-- what it means for a call to be about to return -/
theorem Returns.elim {s : S} {i : Nat} {c : Call} {v : Int} {d : Msg} (h : Returns s i c v d) :
    s.sco.cur = some i ∧ (s.co i).pc = .ret v ∧ (s.co i).call = c ∧ (s.co i).rdat = d ∧ ¬ (v = CANCELED ∧ c.guarded = true ∧ (s.co i).async = true) := by
  obtain ⟨s', hs, hl⟩ := h
  obtain ⟨es, h1, h2⟩ := step_rl hs
  have h3 : rl s' = .ret i c v d :: rl s := by unfold rl; rw [hl, List.filter_cons]; rfl
  rw [h3, show (.ret i c v d :: rl s) = [.ret i c v d] ++ rl s from rfl] at h1
  have h4 := List.append_cancel_right h1
  cases h2 with
  | tau k hc es h2 =>
    subst h4
    cases h2
    rename_i hp hv
    exact ⟨hc, hp, rfl, rfl, hv⟩
  | halt => cases h4
  | nil => cases h4

theorem Returns.intro {s : S} {i : Nat} {v : Int} (hd : s.dead = false) (hf : s.fault = false) (hm : s.main ≠ .done) (hc : s.sco.cur = some i) (hp : (s.co i).pc = .ret v)
    (hv : ¬ (v = CANCELED ∧ (s.co i).call.guarded = true ∧ (s.co i).async = true)) : Returns s i (s.co i).call v (s.co i).rdat := by
  refine ⟨_, by unfold step; rw [if_neg (by simp [hd, hf, hm])]; simp only [hc, tauCo, hp]; rfl, ?_⟩
  unfold doRet; rw [if_neg hv]; rfl

/-! ## Names of parent and child -/

/-- a fresh coroutine or the one `start` named: who started it -/
structure InvP (s : S) : Prop where
  sp : ∀ p k, .start (some p) k ∈ rl s → (s.co k).starterid = p
  lc : ∀ i k, lastChild i (rl s) = some k → (s.co i).lastid = k
  sl : ∀ p k, .start p k ∈ rl s → k ≤ s.sco.nextId
  pl : ∀ p k, .start (some p) k ∈ rl s → p ≤ s.sco.nextId

theorem lastChild_mem {i k : Nat} {l : List Ev} (h : lastChild i l = some k) : .start (some i) k ∈ l := by
  induction l with
  | nil => cases h
  | cons e l ih =>
    unfold lastChild at h
    split at h
    · simp_all
    · rename_i heq
      simp at heq; obtain ⟨rfl, rfl⟩ := heq
      split at h
      · subst_vars; cases h; simp
      · exact List.mem_cons_of_mem _ (ih h)
    · rename_i heq
      simp at heq; obtain ⟨rfl, rfl⟩ := heq
      exact List.mem_cons_of_mem _ (ih h)

/-- apart from births, the new events name no child -/
theorem StepRare.noStart {s : S} {a : Act} {es : List Ev} (h : StepRare s a es) (hn : a ≠ .call .start ∧ a ≠ .call .genStart) : ∀ p k, .start p k ∉ es := by
  intro p k hm
  cases h with
  | start c i _ _ hc => rcases hc with rfl | rfl <;> simp at hn
  | tau i hc es h => cases h <;> simp at hm
  | _ => simp at hm

theorem lastChild_append {i : Nat} {es l : List Ev} (h : ∀ p k, .start p k ∉ es) : lastChild i (es ++ l) = lastChild i l := by
  induction es with
  | nil => rfl
  | cons e es ih =>
    have h' := ih (fun p k hm => h p k (List.mem_cons_of_mem _ hm))
    cases e with
    | start p k => exact absurd (List.mem_cons_self ..) (h p k)
    | _ => simpa [lastChild] using h'

theorem callStat_last {s : S} {i : Nat} {c : Call} {k : Co} (h1 : c ≠ .start) (h2 : c ≠ .genStart) : (callStat s i c k).lastid = k.lastid := by
  unfold callStat; split <;> (try split) <;> first | rfl | exact absurd rfl h1 | exact absurd rfl h2

theorem nx_step {s s' : S} {a : Act} (hs : step s a = some s') (hA : InvA s) : s'.sco.nextId = s.sco.nextId + (if a = .call .start ∨ a = .call .genStart then 1 else 0) := by
  have hA' := hA.step hs
  obtain ⟨es, h1, h2⟩ := step_rl hs
  have hlen : ∀ n m : Nat, (List.range' 1 n).reverse.length = (List.range' 1 m).reverse.length → n = m := by intro n m; simp
  split
  · rename_i h
    cases h2 with
    | start c i hc hp hcc =>
      apply hlen
      rw [← hA'.st, h1]; simp [starts, hA.st]
    | call c i hc hp _ h3 h4 => rcases h with h | h <;> cases h <;> simp at h3 h4
    | cpop => simp at h
    | nil _ hn => rcases h with h | h <;> exact absurd h (hn _)
    | _ => simp at h
  · rename_i h
    have hst : ∀ es : List Ev, (∀ p k, .start p k ∉ es) → starts (es ++ rl s) = starts (rl s) := by
      intro es hes
      induction es with
      | nil => rfl
      | cons e es ih =>
        have h' := ih (fun p k hm => hes p k (List.mem_cons_of_mem _ hm))
        cases e with
        | start p k => exact absurd (List.mem_cons_self ..) (hes p k)
        | _ => simpa [starts] using h'
    apply hlen
    rw [← hA'.st, h1, hst es (h2.noStart (by simpa using h)), hA.st]; rfl

theorem InvP.step {s s' : S} {a : Act} (h : InvP s) (hA : InvA s) (hw : Sco.WF s.sco) (hs : Rt.step s a = some s') : InvP s' := by
  have hnx := nx_step hs hA
  obtain ⟨es, h1, h2⟩ := step_rl hs
  have hst : ∀ k, k ≤ s.sco.nextId → (s'.co k).starterid = (s.co k).starterid := by
    intro k hk
    rcases step_stat hw hs k with ⟨h3, _⟩ | ⟨c, ha, hc, hp, h3⟩ | ⟨i, g, ha, hi, hj, h3⟩ | ⟨v, ha, hc, hp, h3⟩ | ⟨x, q, ha, hc, hp, hq, h3⟩ | ⟨x, y, ha, hc, hp, h3⟩
    · exact stat_starter h3
    · exact (stat_starter h3).trans (callStat_starter ..)
    · omega
    · exact (stat_starter h3).trans rfl
    · exact (stat_starter h3).trans rfl
    · exact (stat_starter h3).trans rfl
  have hlast : ∀ k, k ≤ s.sco.nextId → ((a = .call .start ∨ a = .call .genStart) → s.sco.cur ≠ some k) → (s'.co k).lastid = (s.co k).lastid := by
    intro k hk hne
    rcases step_stat hw hs k with ⟨h3, _⟩ | ⟨c, ha, hc, hp, h3⟩ | ⟨i, g, ha, hi, hj, h3⟩ | ⟨v, ha, hc, hp, h3⟩ | ⟨x, q, ha, hc, hp, hq, h3⟩ | ⟨x, y, ha, hc, hp, h3⟩
    · exact stat_last h3
    · subst ha
      exact (stat_last h3).trans (callStat_last (fun e => hne (by simp [e]) hc) (fun e => hne (by simp [e]) hc))
    · omega
    · exact (stat_last h3).trans rfl
    · exact (stat_last h3).trans rfl
    · exact (stat_last h3).trans rfl
  by_cases hb : a = .call .start ∨ a = .call .genStart
  · rw [if_pos hb] at hnx
    cases h2 with
    | start c i hc hp hcc =>
      have hi := (cur_le hw hc).2
      have hnew : (s'.co (s.sco.nextId + 1)).starterid = i := by
        obtain ⟨i', g, hc', e1, _⟩ := start_new (by simpa using hcc) hs
        rw [hc] at hc'; cases hc'
        rw [e1]; unfold newCo; split <;> rfl
      have hnewl : (s'.co i).lastid = s.sco.nextId + 1 := by
        rcases step_stat hw hs i with ⟨h3, h4⟩ | ⟨c', ha, hc, hp, h3⟩ | ⟨i', g, ha, hi', hj, h3⟩ | ⟨v, ha, hc, hp, h3⟩ | ⟨x, q, ha, hc, hp, hq, h3⟩ | ⟨x, y, ha, hc, hp, h3⟩
        · exact absurd hc (h4 c rfl)
        · cases ha
          refine (stat_last h3).trans ?_
          rcases hcc with rfl | rfl <;> rfl
        · omega
        · simp at ha
        · simp at ha
        · simp at ha
      have hmem : ∀ p k, .start p k ∈ rl s' → (p = some i ∧ k = s.sco.nextId + 1) ∨ .start p k ∈ rl s := by
        intro p k hm; rw [h1] at hm; simpa using hm
      refine ⟨?_, ?_, ?_, ?_⟩
      · intro p k hm
        rcases hmem _ _ hm with ⟨e1, e2⟩ | hm
        · cases e1; rw [e2]; exact hnew
        · rw [hst k (h.sl _ _ hm)]; exact h.sp p k hm
      · intro j k hk
        rw [h1] at hk
        simp only [List.cons_append, List.nil_append, lastChild] at hk
        split at hk
        · subst_vars; cases hk; exact hnewl
        · rename_i hne
          rw [hlast j (h.pl _ _ (lastChild_mem hk)) (fun _ e => hne (by rw [hc] at e; cases e; rfl))]; exact h.lc j k hk
      · intro p k hm; rw [hnx]
        rcases hmem _ _ hm with ⟨e1, e2⟩ | hm
        · omega
        · have := h.sl p k hm; omega
      · intro p k hm; rw [hnx]
        rcases hmem _ _ hm with ⟨e1, e2⟩ | hm
        · cases e1; omega
        · have := h.pl p k hm; omega
    | call c i hc hp _ h3 h4 => rcases hb with h | h <;> cases h <;> simp at h3 h4
    | cpop => simp at hb
    | nil _ hn => rcases hb with h | h <;> exact absurd h (hn _)
    | _ => simp at hb
  · rw [if_neg hb] at hnx
    have hno := h2.noStart (by simpa using hb)
    have hmem : ∀ p k, .start p k ∈ rl s' → .start p k ∈ rl s := by
      intro p k hm; rw [h1] at hm
      rcases List.mem_append.mp hm with hm | hm
      · exact absurd hm (hno p k)
      · exact hm
    refine ⟨?_, ?_, ?_, ?_⟩
    · intro p k hm
      have hm := hmem _ _ hm
      rw [hst k (h.sl _ _ hm)]; exact h.sp p k hm
    · intro i k hk
      rw [h1, lastChild_append hno] at hk
      rw [hlast i (h.pl _ _ (lastChild_mem hk)) (fun hx => absurd hx hb)]; exact h.lc i k hk
    · intro p k hm; rw [hnx]; exact h.sl p k (hmem _ _ hm)
    · intro p k hm; rw [hnx]; exact h.pl p k (hmem _ _ hm)

theorem reach_invP {ok} {s : S} (h : Reach ok s) : InvP s := by
  induction h with
  | init a e =>
    have hr : rl (init a e) = [.start none 1] := rfl
    refine ⟨?_, ?_, ?_, ?_⟩ <;> rw [hr]
    · simp
    · simp [lastChild]
    · intro p k h; simp at h; simp [h.2, init]
    · simp
  | step hr a _ hs ih => exact ih.step (reach_invA hr) (reach_scoWF hr) hs

end Neco.Rt
