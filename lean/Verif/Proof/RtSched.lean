import Verif.Proof.RtFrame
import Verif.Proof.Sco
/-!
# The runtime performs only scheduler operations on the scheduler
-/
namespace Neco.Rt
open Neco.Err

/-! ### more projections -/
@[simp] theorem coyield_sco (s : S) (i n : Nat) (a : Aft) : (coyield s i n a).sco = s.sco.yield := rfl
@[simp] theorem yfsr_sco (s : S) (i n : Nat) (a : Aft) : (yfsr s i n a).sco = s.sco.yield := rfl
@[simp] theorem scoResume_sco (s : S) (i : Nat) : (scoResume s i).sco = s.sco.resume i := rfl
theorem copause_sco (s : S) (i : Nat) (dl : Int) (b : Blk) : (copause s i dl b).sco =
    if (s.co i).canceled = true ∨ (s.co i).deadlined = true then s.sco else s.sco.pause := by
  unfold copause; split <;> rfl
@[simp] theorem doStart_sco (s : S) (i : Nat) (g : Option Nat) : (doStart s i g).sco = s.sco.start := rfl
@[simp] theorem doGenStart_sco (s : S) (i : Nat) : (doGenStart s i).sco = s.sco.start := rfl

/-- what one step of a coroutine does to the scheduler -/
inductive CoSco (x : Sco) : Sco → Prop
  | refl : CoSco x x
  | yield : CoSco x x.yield
  | pause : CoSco x x.pause
  | resume (id : Nat) : CoSco x (x.resume id)
  | start : CoSco x x.start
  | finish : CoSco x x.finish
  | exit : CoSco x x.exit

theorem copause_cs (s : S) (i : Nat) (dl : Int) (b : Blk) : CoSco s.sco (copause s i dl b).sco := by
  rw [copause_sco]; split
  · exact .refl
  · exact .pause

theorem copause_cs' (x : Sco) (s : S) (i : Nat) (dl : Int) (b : Blk) (h : s.sco = x) : CoSco x (copause s i dl b).sco := by
  subst h; exact copause_cs ..

theorem resumeOpt_cs (s : S) (o : Option Nat) : CoSco s.sco (resumeOpt s o).sco := by
  cases o
  · exact .refl
  · exact .resume _

macro "cs_tac" : tactic => `(tactic| (
  first
  | exact CoSco.refl
  | (simp; first | exact CoSco.refl | exact CoSco.yield | exact CoSco.resume _ | exact CoSco.pause)
  | (apply copause_cs'; simp)))

theorem sendRest_cs (s : S) (i c : Nat) (m : Msg) (dl : Int) (ch : Chan) : CoSco s.sco (sendRest s i c m dl ch).sco := by
  unfold sendRest; dsimp only; (repeat' split) <;> cs_tac

theorem chanSend_cs (s : S) (i c : Nat) (m : Msg) (dl : Int) : CoSco s.sco (chanSend s i c m dl).sco := by
  unfold chanSend; dsimp only; (repeat' split) <;> first
    | cs_tac
    | (have := sendRest_cs (sendTry (note s (.put c i m)) c m ‹_›).1 i c m dl ‹_›; simpa using this)

theorem recvNow_cs {s : S} {c r : Nat} {ch : Chan} {m : Msg} {o : Option Nat} {t : S}
    (h : recvNow s c r ch = some (m, o, t)) (u : S) (hu : u.sco = t.sco) : CoSco s.sco (resumeOpt u o).sco := by
  have := resumeOpt_cs u o
  rwa [hu, recvNow_sco h] at this

theorem chanRecv_cs (s : S) (i c : Nat) (t : Bool) (dl : Int) : CoSco s.sco (chanRecv s i c t dl).sco := by
  unfold chanRecv; dsimp only; (repeat' split) <;> first
    | cs_tac
    | (rename_i h; exact recvNow_cs h _ rfl)

theorem chanSelect_cs (s : S) (i : Nat) (cs : List Nat) (t : Bool) (dl : Int) : CoSco s.sco (chanSelect s i cs dl t).sco := by
  unfold chanSelect; dsimp only; (repeat' split) <;> first
    | cs_tac
    | (rename_i h; exact recvNow_cs h _ rfl)

theorem finishLock_cs (s : S) (i m : Nat) (rd : Bool) (dl : Int) (b : Blk) : CoSco s.sco (finishLock s i m rd dl b).sco := by
  unfold finishLock; apply copause_cs'; simp

theorem finishLock_cs' (x : Sco) (s : S) (i m : Nat) (rd : Bool) (dl : Int) (b : Blk) (h : s.sco = x) :
    CoSco x (finishLock s i m rd dl b).sco := by subst h; exact finishLock_cs ..

theorem cvEnq_cs' (x : Sco) (s : S) (i v : Nat) (dl : Int) (h : s.sco = x) : CoSco x (cvEnq s i v dl).sco := by
  subst h; unfold cvEnq; apply copause_cs'; simp

theorem doCall_cs (s : S) (i : Nat) (c : Call) : CoSco s.sco (doCall s i c).sco := by
  cases c <;> simp only [doCall]
  case start => exact .start
  case genStart => exact .start
  case sleep => unfold doSleep; split <;> cs_tac
  case join => unfold doJoin; dsimp only; (repeat' split) <;> cs_tac
  case suspend => unfold doSuspend; cs_tac
  case resume => unfold doResume; (repeat' split) <;> cs_tac
  case send => exact chanSend_cs ..
  case bcast => unfold chanBcast; dsimp only; (repeat' split) <;> cs_tac
  case recv => exact chanRecv_cs ..
  case tryrecv => exact chanRecv_cs ..
  case close => unfold chanClose chanClose1; dsimp only; (repeat' split) <;> cs_tac
  case select => exact chanSelect_cs ..
  case tryselect => exact chanSelect_cs ..
  case genYield =>
    unfold doGenYield; split
    · cs_tac
    · exact chanSend_cs ..
  case lock => unfold muLock; dsimp only; (repeat' split) <;> first | cs_tac | (apply finishLock_cs'; simp)
  case rdlock => unfold muRdlock; dsimp only; (repeat' split) <;> first | cs_tac | (apply finishLock_cs'; simp)
  case unlock => unfold muUnlock; split <;> cs_tac
  case wgDone => unfold wgDone; dsimp only; (repeat' split) <;> cs_tac
  case wgWait => unfold wgWait; dsimp only; (repeat' split) <;> cs_tac
  case cvSignal => unfold cvSignal; split <;> cs_tac
  case cvBcast => unfold cvBcast; cs_tac
  case cvWait => unfold cvWait; (repeat' split) <;> first | cs_tac | (apply cvEnq_cs'; simp)
  case sigWait => unfold doSigWait; dsimp only; (repeat' split) <;> cs_tac
  case wait => unfold doWait; dsimp only; (repeat' split) <;> cs_tac
  case chRetain => split <;> cs_tac
  all_goals cs_tac

theorem tauCo_cs {s s' : S} {i : Nat} (h : tauCo s i = some s') : CoSco s.sco s'.sco := by
  unfold tauCo at h
  split at h
  case h_1 => cases h
  case h_2 => cases h
  case h_3 => cases h
  case h_4 => cases h; cs_tac
  case h_5 =>
    (repeat' split at h) <;> cases h <;> cs_tac
  case h_6 => cases h; cs_tac
  case h_7 a _ =>
    cases h
    cases a with
    | ret v => exact .refl
    | condEnq => simp only [doAft]; split <;> first | cs_tac | (apply cvEnq_cs'; simp)
    | genRel => simp only [doAft]; split <;> cs_tac
    | exitTail => simp only [doAft]; split <;> cs_tac
    | fin a =>
      simp only [doAft, doFin]
      split
      · simp; exact .exit
      · simp; exact .finish
  case h_8 => cases h; cs_tac
  case h_9 b _ =>
    cases h
    cases b <;> simp only [afterBlk] <;> (repeat' split) <;> cs_tac
  case h_10 =>
    (split at h) <;> cases h
    · unfold doCancel; dsimp only; (repeat' split) <;> cs_tac
    · cs_tac
  case h_11 =>
    (split at h) <;> cases h
    · unfold doRelock; (repeat' split) <;> first | cs_tac | (apply finishLock_cs'; simp)
    · cs_tac
  case h_12 => cases h; cs_tac
  case h_13 a _ =>
    cases h
    unfold doExit exitNotify chanClose1; dsimp only; (repeat' split) <;> cs_tac

theorem CoSco.steps {x y : Sco} (h : CoSco x y) {i : Nat} (hc : x.cur = some i) : ∃ ops, Sco.Steps x ops y := by
  have hs : x.cur.isSome := by rw [hc]; rfl
  cases h with
  | refl => exact ⟨[], .nil _⟩
  | yield => exact ⟨_, (Sco.Steps.nil x).snoc .yield hs⟩
  | pause => exact ⟨_, (Sco.Steps.nil x).snoc .pause hs⟩
  | resume id => exact ⟨_, (Sco.Steps.nil x).snoc (.resume id) hs⟩
  | start => exact ⟨_, (Sco.Steps.nil x).snoc .start hs⟩
  | finish => exact ⟨_, (Sco.Steps.nil x).snoc .finish hs⟩
  | exit => exact ⟨_, (Sco.Steps.nil x).snoc .exit hs⟩

theorem steps_trans {x y z : Sco} {o p} (h : Sco.Steps x o y) (g : Sco.Steps y p z) : ∃ q, Sco.Steps x q z := by
  induction g with
  | nil => exact ⟨_, h⟩
  | snoc g o e ih => obtain ⟨q, hq⟩ := ih; exact ⟨_, hq.snoc o e⟩

theorem resume_main_cur {x : Sco} (h : x.cur = none) (id : Nat) : (x.resume id).cur = none := by
  unfold Sco.resume Sco.yield Sco.wake; split
  · simp [h]
  · exact h

theorem resume_main_steps {x : Sco} (h : x.cur = none) (hw : Sco.WF x) (id : Nat) : ∃ ops, Sco.Steps x ops (x.resume id) := by
  by_cases h0 : id = 0
  · subst h0
    have : 0 ∉ x.paused := by
      intro h1
      have := hw.perm.mem_iff.1 (show 0 ∈ x.everybody by unfold Sco.everybody; simp [h1])
      rw [List.mem_range'_1] at this; omega
    exact ⟨[], by unfold Sco.resume; rw [if_neg this]; exact .nil _⟩
  · exact ⟨_, (Sco.Steps.nil x).snoc (.mainResume id) ⟨h, h0⟩⟩

theorem wakeAll_steps {s : S} (h : s.sco.cur = none) (hw : Sco.WF s.sco) (q : List Nat) :
    (wakeAll s q).sco.cur = none ∧ ∃ ops, Sco.Steps s.sco ops (wakeAll s q).sco := by
  induction q generalizing s with
  | nil => exact ⟨h, [], .nil _⟩
  | cons i q ih =>
    obtain ⟨o, ho⟩ := resume_main_steps h hw i
    obtain ⟨h1, p, hp⟩ := ih (s := scoResume s i) (resume_main_cur h i) (Sco.resume_wf hw i)
    exact ⟨h1, steps_trans ho hp⟩

theorem mEvents_steps {s : S} (h : s.sco.cur = none) (hw : Sco.WF s.sco) (q) :
    (mEvents s q).sco.cur = none ∧ ∃ ops, Sco.Steps s.sco ops (mEvents s q).sco := by
  induction q generalizing s with
  | nil => exact ⟨h, [], .nil _⟩
  | cons e q ih =>
    have h0 : (mEvent s e).sco.cur = none ∧ ∃ ops, Sco.Steps s.sco ops (mEvent s e).sco := by
      unfold mEvent
      refine wakeAll_steps (s := ?_) ?_ ?_ _
      · exact h
      · exact hw
    obtain ⟨h1, o, ho⟩ := h0
    obtain ⟨h2, p, hp⟩ := ih (s := mEvent s e) h1 (Sco.steps_wf ho hw)
    exact ⟨h2, steps_trans ho hp⟩

theorem tauMain_steps {s s' : S} (h : s.sco.cur = none) (hw : Sco.WF s.sco) (hs : tauMain s = some s') :
    ∃ ops, Sco.Steps s.sco ops s'.sco := by
  unfold tauMain at hs
  split at hs
  · (repeat' split at hs) <;> cases hs
    · exact ⟨[], .nil _⟩
    · exact (wakeAll_steps (s := { setList s .resumers [] with nresumers := _ }) h hw _).2
    · exact ⟨[], .nil _⟩
  · cases hs
    unfold mIo; split
    · exact (wakeAll_steps (s := setList s .iolist []) h hw _).2
    · exact ⟨[], .nil _⟩
  · cases hs
  · cases hs
    unfold mSig; dsimp only; (repeat' split)
    · exact ⟨[], .nil _⟩
    · exact ⟨[], .nil _⟩
    · exact ⟨[], .nil _⟩
    · exact resume_main_steps (x := s.sco) h hw _
  · cases hs
    exact (wakeAll_steps (s := markDl s _) h hw _).2
  · cases hs; exact ⟨[], .nil _⟩
  · cases hs; exact ⟨_, (Sco.Steps.nil s.sco).snoc .mainNext h⟩
  · cases hs

theorem step_steps {s s' : S} {a : Act} (hw : Sco.WF s.sco) (h : step s a = some s') :
    ∃ ops, Sco.Steps s.sco ops s'.sco := by
  unfold step at h
  split at h
  · cases h
  cases a with
  | call c =>
    simp only at h
    split at h
    · cases h
    · split at h
      · rename_i i hc _; cases h; exact CoSco.steps (x := s.sco) (doCall_cs (upd (note s (Ev.call i c)) i (fun k => { k with call := c })) i c) hc
      · cases h
  | finish =>
    simp only at h
    split at h
    · cases h
    · split at h
      · cases h; exact ⟨[], .nil _⟩
      · cases h
  | tau =>
    simp only at h
    split at h
    · exact (tauCo_cs h).steps ‹_›
    · exact tauMain_steps ‹_› hw h
  | submit ok =>
    simp only at h
    split at h
    · cases h
    · (repeat' split at h) <;> cases h
      · exact CoSco.pause.steps ‹_›
      · exact CoSco.yield.steps ‹_›
  | events evs =>
    simp only at h
    split at h
    · cases h
      split
      · exact (mEvents_steps (by simp_all) hw _).2
      · exact ⟨[], .nil _⟩
    · cases h
  | clock t => simp only at h; split at h <;> cases h; exact ⟨[], .nil _⟩
  | signal n =>
    simp only at h; (repeat' split at h) <;> cases h <;> exact ⟨[], .nil _⟩
  | wdone i => simp only at h; split at h <;> cases h; exact ⟨[], .nil _⟩

/-- every reachable state of the runtime has a reachable scheduler state -/
theorem reach_sco {ok} {s : S} (h : Reach ok s) : Sco.Reach s.sco := by
  induction h with
  | init a e => exact ⟨_, (Sco.Steps.nil {}).snoc .mainStart ⟨rfl, rfl⟩⟩
  | step h a hok hs ih =>
    obtain ⟨o, ho⟩ := ih
    obtain ⟨p, hp⟩ := step_steps (Sco.reach_wf ⟨o, ho⟩) hs
    exact steps_trans ho hp

theorem reach_scoWF {ok} {s : S} (h : Reach ok s) : Sco.WF s.sco := Sco.reach_wf (reach_sco h)

end Neco.Rt
