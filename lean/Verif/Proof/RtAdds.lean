import Verif.Proof.RtLife
/-!
# Which kinds of events each operation adds to the history
-/
namespace Neco.Rt
open Neco.Err

inductive Kind | call | ret | start | exit | clean | cancel | put | take | withdraw | bcastTo | grant | release | wake | nowait | resume | ready | kill | wdone | sig | sigTo | stats | halt
deriving DecidableEq

def Ev.kind : Ev → Kind
  | .call _ _ => .call | .ret _ _ _ _ => .ret | .start _ _ => .start | .exit _ => .exit | .clean _ _ => .clean | .cancel _ _ => .cancel
  | .put _ _ _ => .put | .take _ _ _ => .take | .withdraw _ _ => .withdraw | .bcastTo _ _ _ => .bcastTo | .grant _ _ _ => .grant
  | .release _ _ => .release | .wake _ _ => .wake | .nowait _ _ => .nowait | .resume _ _ => .resume | .ready _ _ _ => .ready
  | .kill _ _ => .kill | .wdone _ => .wdone | .sig _ => .sig | .sigTo _ _ => .sigTo | .stats _ _ => .stats | .halt => .halt

/-- the history of `t` extends that of `s` by events of these kinds -/
def Adds (ks : List Kind) (s t : S) : Prop := ∃ es, t.log = es ++ s.log ∧ ∀ e ∈ es, e.kind ∈ ks

theorem Adds.post {ks : List Kind} {s t t' : S} (h2 : t'.log = t.log) (h : Adds ks s t) : Adds ks s t' := by
  unfold Adds at h ⊢; rw [h2]; exact h
theorem Adds.pre {ks : List Kind} {s s' t : S} (h2 : s.log = s'.log) (h : Adds ks s' t) : Adds ks s t := by
  unfold Adds at h ⊢; rw [h2]; exact h

theorem Adds.refl (ks : List Kind) (s : S) : Adds ks s s := ⟨[], rfl, by simp⟩
theorem Adds.same {ks : List Kind} {s t : S} (h : t.log = s.log) : Adds ks s t := ⟨[], by rw [h]; rfl, by simp⟩
theorem Adds.mono {ks ls : List Kind} {s t : S} (h : Adds ks s t) (hk : ∀ k ∈ ks, k ∈ ls) : Adds ls s t := by
  obtain ⟨es, h1, h2⟩ := h; exact ⟨es, h1, fun e he => hk _ (h2 e he)⟩
theorem Adds.trans {ks : List Kind} {s t u : S} (h : Adds ks s t) (g : Adds ks t u) : Adds ks s u := by
  obtain ⟨es, h1, h2⟩ := h; obtain ⟨fs, g1, g2⟩ := g
  refine ⟨fs ++ es, by rw [g1, h1, List.append_assoc], fun e he => ?_⟩
  rcases List.mem_append.mp he with he | he
  · exact g2 e he
  · exact h2 e he
theorem Adds.note {ks : List Kind} {s : S} {e : Ev} (h : e.kind ∈ ks) : Adds ks s (note s e) := ⟨[e], rfl, by simpa using h⟩
theorem Adds.cons {ks : List Kind} {s t : S} {e : Ev} (h : t.log = e :: s.log) (hk : e.kind ∈ ks) : Adds ks s t := ⟨[e], h, by simpa using hk⟩
theorem Adds.log {ks : List Kind} {s s' t t' : S} (h : Adds ks s t) (h1 : s'.log = s.log) (h2 : t'.log = t.log) : Adds ks s' t' := by
  unfold Adds at h ⊢; rw [h1, h2]; exact h
theorem Adds.filter {ks : List Kind} {s t : S} (h : Adds ks s t) {p : Ev → Bool} (hp : ∀ e, e.kind ∈ ks → p e = false) : t.log.filter p = s.log.filter p := by
  obtain ⟨es, h1, h2⟩ := h
  rw [h1, List.filter_append, List.filter_eq_nil_iff.mpr (fun e he => by simp [hp e (h2 e he)])]; rfl

theorem sendLoop_adds (s : S) (c : Nat) (m : Msg) (q : List Node) : Adds [.take] s (sendLoop s c m q).1 := by
  induction q generalizing s with
  | nil => exact .same rfl
  | cons n q ih =>
    cases n with
    | co r => exact .cons rfl (by simp [Ev.kind])
    | case r x => unfold sendLoop; split
                  · exact ih s
                  · exact .cons rfl (by simp [Ev.kind])
theorem sendTry_adds (s : S) (c : Nat) (m : Msg) (ch : Chan) : Adds [.take] s (sendTry s c m ch).1 := by
  unfold sendTry; split
  · exact sendLoop_adds ..
  · exact .refl ..
theorem bcastLoop_adds (s : S) (c : Nat) (m : Msg) (q : List Node) : Adds [.bcastTo] s (bcastLoop s c m q).1 := by
  induction q generalizing s with
  | nil => exact .same rfl
  | cons n q ih =>
    cases n with
    | co r => exact (Adds.cons (e := .bcastTo c r m) rfl (by simp [Ev.kind])).trans (ih _)
    | case r x =>
      unfold bcastLoop; split
      · exact ih s
      · exact (Adds.cons (e := .bcastTo c r m) rfl (by simp [Ev.kind])).trans (ih _)
theorem bcastTry_adds (s : S) (c : Nat) (m : Msg) (ch : Chan) : Adds [.bcastTo] s (bcastTry s c m ch).1 := by
  unfold bcastTry; split
  · exact bcastLoop_adds ..
  · exact .refl ..
theorem chanSend_adds (s : S) (i c : Nat) (m : Msg) (dl : Int) : Adds [.put, .take] s (chanSend s i c m dl) := by
  unfold chanSend
  split
  · exact .same rfl
  dsimp only
  split
  · exact .same rfl
  split
  · exact .same rfl
  have h : ∀ ch, Adds [.put, .take] s (sendTry (note s (.put c i m)) c m ch).1 := fun ch =>
    (Adds.note (by simp [Ev.kind])).trans ((sendTry_adds ..).mono (by simp))
  split
  · exact .post (by simp; rfl) (h _)
  · exact .post (by simp; rfl) (h _)
theorem chanBcast_adds (s : S) (i c : Nat) (m : Msg) : Adds [.bcastTo] s (chanBcast s i c m) := by
  unfold chanBcast
  split
  · exact .same rfl
  split
  · exact .same rfl
  · exact .post (by simp; rfl) (bcastTry_adds s c m _)
theorem recvNow_adds {s t : S} {c r : Nat} {ch : Chan} {m : Msg} {o : Option Nat} (h : recvNow s c r ch = some (m, o, t)) : Adds [.take] s t := by
  unfold recvNow at h
  (repeat' split at h) <;> first
    | (simp at h; done)
    | (simp at h; obtain ⟨_, _, rfl⟩ := h; first | exact .same rfl | exact .cons rfl (by simp [Ev.kind]))
theorem chanRecv_adds (s : S) (i c : Nat) (t : Bool) (dl : Int) : Adds [.take] s (chanRecv s i c t dl) := by
  unfold chanRecv
  (repeat' split)
  · exact .same rfl
  · exact .same rfl
  · exact .same rfl
  · rename_i h; exact (recvNow_adds h).log rfl (by simp)
  · exact .same rfl
  · exact .same (by simp)
theorem chanSelect_adds (s : S) (i : Nat) (cs : List Nat) (dl : Int) (t : Bool) : Adds [.take] s (chanSelect s i cs dl t) := by
  unfold chanSelect
  (repeat' split)
  · exact .same rfl
  · exact .same rfl
  · exact .same rfl
  · exact .same rfl
  · rename_i h; exact (recvNow_adds h).log rfl (by simp)
  · exact .same rfl
  · exact .same rfl
  · exact .same (by simp)
theorem muLock_adds (s : S) (i m : Nat) (dl : Int) : Adds [.grant] s (muLock s i m dl) := by
  unfold muLock; dsimp only; (repeat' split)
  · exact .same (by simp)
  · exact .same (by simp)
  · exact .cons rfl (by simp [Ev.kind])
theorem muRdlock_adds (s : S) (i m : Nat) (dl : Int) : Adds [.grant] s (muRdlock s i m dl) := by
  unfold muRdlock; dsimp only; (repeat' split)
  · exact .same (by simp)
  · exact .same (by simp)
  · exact .cons rfl (by simp [Ev.kind])
theorem muTrylock_adds (s : S) (i m : Nat) : Adds [.grant] s (muTrylock s i m) := by
  unfold muTrylock; split
  · exact .same (by simp)
  · exact .cons rfl (by simp [Ev.kind])
theorem muTryrdlock_adds (s : S) (i m : Nat) : Adds [.grant] s (muTryrdlock s i m) := by
  unfold muTryrdlock; split
  · exact .same (by simp)
  · exact .cons rfl (by simp [Ev.kind])
theorem handoff_adds (s : S) (m : Nat) (q : List Node) : Adds [.grant] s (handoff s m q) := by
  induction q generalizing s with
  | nil => exact .refl ..
  | cons n q ih =>
    unfold handoff; dsimp only
    split
    · split
      · exact .cons rfl (by simp [Ev.kind])
      · split
        · exact (Adds.cons (e := .grant m n.owner true) rfl (by simp [Ev.kind])).trans (ih _)
        · exact .cons rfl (by simp [Ev.kind])
    · exact .cons rfl (by simp [Ev.kind])
theorem fastUnlock_adds (s : S) (m : Nat) : Adds [.grant] s (fastUnlock s m) := by
  unfold fastUnlock; dsimp only; (repeat' split)
  · exact .refl ..
  · exact .same rfl
  · exact .same rfl
  · exact .pre (s' := setMu s m { s.mu m with rlocked := 0 }) rfl (handoff_adds ..)
theorem muUnlock_adds (s : S) (i m : Nat) : Adds [.release, .grant] s (muUnlock s i m) := by
  have h : Adds [.release, .grant] s (fastUnlock (note s (.release m i)) m) :=
    (Adds.note (by simp [Ev.kind])).trans ((fastUnlock_adds ..).mono (by simp))
  unfold muUnlock; split <;> exact h.log rfl (by simp)
theorem schedAll_adds (s : S) (L : LName) (q : List Node) : Adds [.wake] s (schedAll s L q) := by
  induction q generalizing s with
  | nil => exact .refl ..
  | cons n q ih => exact (Adds.cons (e := .wake L n.owner) rfl (by simp [Ev.kind])).trans (ih _)
theorem wgDone_adds (s : S) (i w : Nat) : Adds [.wake] s (wgDone s i w) := by
  unfold wgDone; dsimp only; (repeat' split)
  · exact .same rfl
  · exact .same rfl
  · exact .cons (e := .wake _ _) rfl (by simp [Ev.kind])
  · exact .post (yfsr_log ..) (.pre (s' := setList (setWg s w (s.wg w - 1)) (.wgQ w) []) rfl (schedAll_adds ..))
  · exact .same rfl
theorem wgWait_adds (s : S) (i w : Nat) (dl : Int) : Adds [.nowait] s (wgWait s i w dl) := by
  unfold wgWait; dsimp only; (repeat' split)
  · exact .same rfl
  · exact .cons rfl (by simp [Ev.kind])
  · exact .same (by simp)
theorem cvSignal_adds (s : S) (i v : Nat) : Adds [.wake] s (cvSignal s i v) := by
  unfold cvSignal; split
  · exact .same rfl
  · exact .cons rfl (by simp [Ev.kind])
theorem cvBcast_adds (s : S) (i v : Nat) : Adds [.wake] s (cvBcast s i v) := by
  exact .post (yfsr_log ..) (.pre (s' := setList s (.cvQ v) []) rfl (schedAll_adds ..))
theorem cvWait_adds (s : S) (i v m : Nat) (dl : Int) : Adds [.release, .grant] s (cvWait s i v m dl) := by
  have h : Adds [.release, .grant] s (fastUnlock (note s (.release m i)) m) :=
    (Adds.note (by simp [Ev.kind])).trans ((fastUnlock_adds ..).mono (by simp))
  unfold cvWait; (repeat' split)
  · exact .same rfl
  · exact h.log rfl (by simp)
  · exact h.log rfl (by simp)
theorem doJoin_adds (s : S) (i id : Nat) (dl : Int) : Adds [.nowait] s (doJoin s i id dl) := by
  unfold doJoin; dsimp only; (repeat' split)
  · exact .cons rfl (by simp [Ev.kind])
  · exact .same (by simp)
  · exact .same (by simp)
  · exact .same (by simp)
theorem doResume_adds (s : S) (i id : Nat) : Adds [.resume] s (doResume s i id) := by
  unfold doResume; (repeat' split)
  · exact .same rfl
  · exact .same rfl
  · exact .cons rfl (by simp [Ev.kind])
theorem doCancel_adds (s : S) (i id : Nat) (dl : Int) : Adds [.cancel] s (doCancel s i id dl) := by
  unfold doCancel; dsimp only; (repeat' split)
  · exact .same rfl
  · exact .same rfl
  · exact .cons rfl (by simp [Ev.kind])
  · exact .same (by simp)
theorem doCpop_adds (s : S) (i : Nat) (e : Bool) : Adds [.clean] s (doCpop s i e) := by
  unfold doCpop; dsimp only; (repeat' split)
  · exact .same rfl
  · exact .cons rfl (by simp [Ev.kind])
  · exact .same rfl
theorem doGenYield_adds (s : S) (i : Nat) (m : Msg) (dl : Int) : Adds [.put, .take] s (doGenYield s i m dl) := by
  unfold doGenYield; split
  · exact .same rfl
  · exact chanSend_adds ..

/-- the kinds of events a call adds up to its first context switch -/
def callKinds : Call → List Kind
  | .start | .genStart => [.start]
  | .join _ _ => [.nowait]
  | .resume _ => [.resume]
  | .stats => [.stats]
  | .send _ _ _ | .genYield _ _ => [.put, .take]
  | .bcast _ _ => [.bcastTo]
  | .recv _ _ | .tryrecv _ | .select _ _ | .tryselect _ => [.take]
  | .lock _ _ | .rdlock _ _ | .trylock _ | .tryrdlock _ => [.grant]
  | .unlock _ | .cvWait _ _ _ => [.release, .grant]
  | .wgDone _ | .cvSignal _ | .cvBcast _ => [.wake]
  | .wgWait _ _ => [.nowait]
  | .cpop _ => [.clean]
  | _ => []

theorem doCall_adds (s : S) (i : Nat) (c : Call) : Adds (callKinds c) s (doCall s i c) := by
  cases c <;> simp only [doCall, callKinds]
  case start => exact .cons rfl (by simp [Ev.kind])
  case genStart => exact .cons rfl (by simp [Ev.kind])
  case join => exact doJoin_adds ..
  case resume => exact doResume_adds ..
  case stats => exact .cons rfl (by simp [Ev.kind])
  case send => exact chanSend_adds ..
  case genYield => exact doGenYield_adds ..
  case bcast => exact chanBcast_adds ..
  case recv => exact chanRecv_adds ..
  case tryrecv => exact chanRecv_adds ..
  case select => exact chanSelect_adds ..
  case tryselect => exact chanSelect_adds ..
  case lock => exact muLock_adds ..
  case rdlock => exact muRdlock_adds ..
  case trylock => exact muTrylock_adds ..
  case tryrdlock => exact muTryrdlock_adds ..
  case unlock => exact muUnlock_adds ..
  case cvWait => exact cvWait_adds ..
  case wgDone => exact wgDone_adds ..
  case wgWait => exact wgWait_adds ..
  case cvSignal => exact cvSignal_adds ..
  case cvBcast => exact cvBcast_adds ..
  case cpop => exact doCpop_adds ..
  case chRetain => split <;> exact .same rfl
  all_goals first | exact .same rfl | exact .same (by simp)

theorem afterBlk_adds (s : S) (i : Nat) (b : Blk) : Adds (if b = .relock then [.kill] else []) s (afterBlk s i b) := by
  cases b <;> simp only [afterBlk]
  case relock =>
    (repeat' split)
    · exact .same (by simp)
    · exact .cons rfl (by simp [Ev.kind])
    · exact .same (by simp)
    · simp at *
    · simp at *
    · simp at *
  all_goals ((repeat' split) <;> exact .same (by simp))
theorem preBlk_adds (s : S) (i : Nat) (b : Blk) : Adds (if b = .send then [.withdraw] else []) s (preBlk s i b) := by
  by_cases hb : b = .send
  · subst hb
    simp only [preBlk, if_true]
    split
    · rename_i c _; unfold noteWithdraw; split
      · exact .cons (e := .withdraw c i) rfl (by simp [Ev.kind])
      · exact .refl ..
    · exact .refl ..
  · rw [if_neg hb]; cases b <;> simp at hb <;> exact .refl ..
theorem doRelock_adds (s : S) (i m : Nat) : Adds [.grant, .kill] s (doRelock s i m) := by
  unfold doRelock; (repeat' split)
  · exact .cons rfl (by simp [Ev.kind])
  · exact .cons rfl (by simp [Ev.kind])
  · exact .same (by simp)
  · exact .same (by simp)
theorem exitNotify_adds (s : S) (i : Nat) (a : Bool) : Adds [.exit, .wake] s (exitNotify s i a) := by
  have h : ∀ q1 q2 : List Node, ∀ t0 : S, t0.log = .exit i :: s.log → Adds [.exit, .wake] s (schedAll (setList (schedAll (setList t0 (.cancelQ i) []) (.cancelQ i) q1) (.joinQ i) []) (.joinQ i) q2) := by
    intro q1 q2 t0 h0
    have h1 : Adds [.exit, .wake] s (schedAll (setList t0 (.cancelQ i) []) (.cancelQ i) q1) :=
      (Adds.cons (e := .exit i) (t := setList t0 (.cancelQ i) []) h0 (by simp [Ev.kind])).trans ((schedAll_adds ..).mono (by simp))
    exact h1.trans ((Adds.same (t := setList _ (.joinQ i) []) rfl).trans ((schedAll_adds ..).mono (by simp)))
  unfold exitNotify; dsimp only
  (repeat' split)
  · exact .post (setPc_log ..) (h _ _ _ rfl)
  · exact .post rfl (h _ _ _ rfl)
  · exact .post (setPc_log ..) (h _ _ _ rfl)
  · exact .post (chanClose1_log ..) (h _ _ _ rfl)
theorem doExit_adds (s : S) (i : Nat) (a : Bool) : Adds [.clean, .exit, .wake] s (doExit s i a) := by
  unfold doExit; (repeat' split)
  · exact .cons rfl (by simp [Ev.kind])
  · exact (exitNotify_adds ..).mono (by simp)
  · exact (exitNotify_adds ..).mono (by simp)
theorem doRet_adds (s : S) (i : Nat) (v : Int) : Adds [.ret, .kill] s (doRet s i v) := by
  unfold doRet; split <;> exact .cons rfl (by simp [Ev.kind])

/-- the kinds of events a step of the running coroutine inside the library adds -/
def pcKinds : Pc → List Kind
  | .ret _ => [.ret, .kill]
  | .yck _ _ => [.kill]
  | .blk .send => [.withdraw]
  | .blk .relock => [.kill]
  | .cancelTry => [.cancel]
  | .relock => [.grant, .kill]
  | .exitRun _ => [.clean, .exit, .wake]
  | _ => []

theorem tauCo_adds {s s' : S} {i : Nat} (hs : tauCo s i = some s') : Adds (pcKinds (s.co i).pc) s s' := by
  unfold tauCo at hs
  split at hs
  · cases hs
  · cases hs
  · cases hs
  · rename_i e; cases hs; rw [e]; exact doRet_adds ..
  · rename_i e; rw [e]; (repeat' split at hs) <;> cases hs
    · exact .cons rfl (by simp [Ev.kind, pcKinds])
    · exact .same (by simp)
    · exact .same (by simp)
  · rename_i e; cases hs; exact .same (by simp)
  · rename_i e; cases hs; exact .same (by simp)
  · rename_i e; cases hs; exact .same rfl
  · rename_i b e; cases hs; rw [e]
    have h1 := (Adds.same (ks := []) (s := s) (unpause_log s i))
    have h2 := preBlk_adds (unpause s i) i b
    have h3 := afterBlk_adds (preBlk (unpause s i) i b) i b
    have h4 : ∀ k, k ∈ (if b = Blk.relock then [Kind.kill] else []) → k ∈ pcKinds (.blk b) := by
      intro k; split
      · rename_i e; subst e; simp [pcKinds]
      · simp
    have h5 : ∀ k, k ∈ (if b = Blk.send then [Kind.withdraw] else []) → k ∈ pcKinds (.blk b) := by
      intro k; split
      · rename_i e; subst e; simp [pcKinds]
      · simp
    exact (h1.mono (by simp)).trans ((h2.mono h5).trans (h3.mono h4))
  · rename_i e; rw [e]; split at hs <;> cases hs
    · exact doCancel_adds ..
    · exact .same rfl
  · rename_i e; rw [e]; split at hs <;> cases hs
    · exact doRelock_adds ..
    · exact .same rfl
  · cases hs; exact .same rfl
  · rename_i e; cases hs; rw [e]; exact doExit_adds ..

theorem mEvent_adds (s : S) (e : Nat × Bool × Bool) : Adds [.ready] s (mEvent s e) := by
  unfold mEvent; dsimp only
  refine ⟨_, by rw [wakeAll_log], ?_⟩
  intro x hx
  simp only [List.mem_append, List.mem_map] at hx
  rcases hx with ⟨_, _, rfl⟩ | ⟨_, _, rfl⟩ <;> simp [Ev.kind]
theorem mEvents_adds (s : S) (es : List (Nat × Bool × Bool)) : Adds [.ready] s (mEvents s es) := by
  induction es generalizing s with
  | nil => exact .refl ..
  | cons e es ih => exact (mEvent_adds s e).trans (ih _)
theorem mSig_adds (s : S) : Adds [.sigTo] s (mSig s) := by
  unfold mSig; dsimp only; (repeat' split)
  · exact .refl ..
  · exact .same rfl
  · exact .refl ..
  · exact .cons rfl (by simp [Ev.kind])

def mainKinds : MPc → List Kind
  | .top => [.halt]
  | .sig => [.sigTo]
  | _ => []
theorem tauMain_adds {s s' : S} (hs : tauMain s = some s') : Adds (mainKinds s.main) s s' := by
  unfold tauMain at hs
  split at hs <;> rename_i e <;> rw [e]
  · (repeat' split at hs) <;> cases hs
    · exact .cons rfl (by simp [Ev.kind, mainKinds])
    · exact .same (by simp)
    · exact .same rfl
  · cases hs; exact .same (by simp)
  · cases hs
  · cases hs; exact (mSig_adds s).log rfl rfl
  · cases hs; exact .same (by simp)
  · cases hs; exact .same (by simp)
  · cases hs; exact .same rfl
  · cases hs

/-- the kinds of events a step adds -/
def stepKinds (s : S) : Act → List Kind
  | .call c => .call :: callKinds c
  | .finish => []
  | .tau => match s.sco.cur with
    | some i => pcKinds (s.co i).pc
    | none => mainKinds s.main
  | .submit _ => []
  | .events _ => [.ready]
  | .clock _ => []
  | .signal _ => [.sig]
  | .wdone _ => [.wdone, .withdraw]

theorem pcKinds_call (p : Pc) : .call ∉ pcKinds p := by unfold pcKinds; split <;> simp
theorem mainKinds_call (p : MPc) : .call ∉ mainKinds p := by unfold mainKinds; split <;> simp

theorem step_adds {s s' : S} {a : Act} (hs : step s a = some s') : Adds (stepKinds s a) s s' := by
  unfold step at hs
  split at hs
  · cases hs
  cases a with
  | call c =>
    simp only at hs
    split at hs
    · cases hs
    rename_i i hc
    split at hs <;> cases hs
    exact (Adds.cons (e := .call i c) (t := upd (note s (.call i c)) i (fun k => { k with call := c })) rfl (by simp [Ev.kind, stepKinds])).trans
      ((doCall_adds _ i c).mono (by simp [stepKinds]; exact fun _ h => .inr h))
  | finish => simp only at hs; (repeat' split at hs) <;> cases hs <;> exact .same (by simp)
  | tau =>
    simp only at hs
    split at hs
    · rename_i hc; simp only [stepKinds, hc]; exact tauCo_adds hs
    · rename_i hc; simp only [stepKinds, hc]; exact tauMain_adds hs
  | submit ok => simp only at hs; (repeat' split at hs) <;> cases hs <;> exact .same (by simp)
  | events evs =>
    simp only at hs
    split at hs <;> cases hs
    split
    · exact (mEvents_adds s evs).log rfl rfl
    · exact .same rfl
  | clock t => simp only at hs; split at hs <;> cases hs; exact .same rfl
  | signal n => simp only at hs; (repeat' split at hs) <;> cases hs <;> exact .cons rfl (by simp [Ev.kind, stepKinds])
  | wdone i => simp only at hs; (repeat' split at hs) <;> cases hs
               refine ⟨.wdone i :: leave s i, rfl, fun e he => ?_⟩
               rcases List.mem_cons.mp he with rfl | he
               · simp [Ev.kind, stepKinds]
               · obtain ⟨c, rfl, _⟩ := mem_leave he; simp [Ev.kind, stepKinds]

/-- the history only grows -/
theorem step_suffix {s s' : S} {a : Act} (hs : step s a = some s') : ∃ es, s'.log = es ++ s.log := by
  obtain ⟨es, h, _⟩ := step_adds hs; exact ⟨es, h⟩

end Neco.Rt
