import Verif.Proof.RtSub
/-!
# The channel invariant of the integrated runtime
-/
namespace Neco.Rt
open Neco.Err

/-! ## The program counter after an operation -/

@[simp] theorem setPc_pc (s : S) (i : Nat) (p : Pc) : ((setPc s i p).co i).pc = p := by simp [setPc_co]
@[simp] theorem retv_pc (s : S) (i : Nat) (v : Int) : ((retv s i v).co i).pc = .ret v := by simp [retv_co]
@[simp] theorem coyield_pc (s : S) (i n : Nat) (a : Aft) : ((coyield s i n a).co i).pc = .yck n a := by simp [coyield_co]
@[simp] theorem yfsr_pc (s : S) (i n : Nat) (a : Aft) : ((yfsr s i n a).co i).pc = .yck ((if s.nresumers > 0 then 1 else 0) + n) a := by
  simp [yfsr]
@[simp] theorem copause_pc (s : S) (i : Nat) (dl : Int) (b : Blk) : ((copause s i dl b).co i).pc = .blk b := by
  rw [copause_co]; simp; split <;> rfl

/-- waiting in the queue of a channel -/
def chq : Pc → Bool
  | .blk .send | .blk .recv | .blk .sel => true
  | _ => false

def Call.chans : Call → Bool
  | .send .. | .genYield .. | .recv .. | .select .. => true
  | _ => false

theorem doStart_pc (s : S) (i : Nat) (g : Option Nat) (hn : i ≤ s.sco.nextId) : ((doStart s i g).co i).pc = .ret OK := by
  have : i ≠ s.sco.nextId + 1 := by omega
  simp [doStart, upd_co, this]

theorem chanClose1_pc (s : S) (i c : Nat) (ch : Chan) (a : Aft) : chq ((chanClose1 s i c ch a).co i).pc = false := by
  unfold chanClose1; dsimp only; split <;> simp [chq]

theorem exitNotify_pc (s : S) (i : Nat) (a : Bool) (hp : chq (s.co i).pc = false) : chq ((exitNotify s i a).co i).pc = false := by
  unfold exitNotify; dsimp only
  (repeat' split)
  · simp [chq]
  · simpa using hp
  · simp [chq]
  · exact chanClose1_pc ..

macro "chq_tac" : tactic => `(tactic| ((try dsimp only); (repeat' split) <;> (try simp_all [chq])))

theorem doCall_pc (s : S) (i : Nat) (c : Call) (hc : c.chans = false) (hu : chq (s.co i).pc = false) (hn : i ≤ s.sco.nextId) :
    chq ((doCall s i c).co i).pc = false := by
  cases c <;> first | (simp [Call.chans] at hc; done) | simp only [doCall]
  case none => exact hu
  case start => simp [doStart_pc s i none hn, chq]
  case genStart => unfold doGenStart; dsimp only; rw [doStart_pc _ _ _ (by exact hn)]; rfl
  case yield => simp [chq]
  case sleep => unfold doSleep; chq_tac
  case join => unfold doJoin; chq_tac
  case suspend => unfold doSuspend; chq_tac
  case resume => unfold doResume; chq_tac
  case bcast => unfold chanBcast; chq_tac
  case tryrecv =>
    unfold chanRecv; (repeat' split) <;> first | exact hu | (simp [chq]; done) | skip
    rename_i hh; simp at hh
  case close =>
    unfold chanClose; (repeat' split) <;> first | exact hu | (simp [chq]; done) | exact chanClose1_pc ..
  case tryselect =>
    unfold chanSelect; dsimp only; (repeat' split) <;> first | exact hu | (simp [chq]; done) | skip
    rename_i hh; simp at hh
  case lock => unfold muLock finishLock; chq_tac
  case rdlock => unfold muRdlock finishLock; chq_tac
  case unlock => unfold muUnlock; chq_tac
  case trylock => unfold muTrylock; chq_tac
  case tryrdlock => unfold muTryrdlock; chq_tac
  case wgAdd => unfold wgAdd; chq_tac
  case wgDone => unfold wgDone; chq_tac
  case wgWait => unfold wgWait; chq_tac
  case cvSignal => unfold cvSignal; chq_tac
  case cvBcast => unfold cvBcast; chq_tac
  case cvWait => unfold cvWait cvEnq; chq_tac
  case sigWatch => unfold doSigWatch; chq_tac
  case sigUnwatch => unfold doSigUnwatch; chq_tac
  case sigWait => unfold doSigWait; chq_tac
  case wait => unfold doWait; chq_tac
  case chRetain => chq_tac
  case chCase => unfold chanCase; chq_tac
  case cpop => unfold doCpop; chq_tac
  all_goals simp [chq]

theorem tauCo_pc {s s' : S} {i : Nat} (h : tauCo s i = some s') : chq (s'.co i).pc = false := by
  unfold tauCo at h
  split at h
  case h_1 => cases h
  case h_2 => cases h
  case h_3 => cases h
  case h_4 => cases h; unfold doRet; split <;> simp [chq, upd_co]
  case h_5 => (repeat' split at h) <;> cases h <;> simp [chq]
  case h_6 => cases h; simp [chq]
  case h_7 a hp =>
    cases h
    cases a with
    | ret v => simp [doAft, chq]
    | condEnq => simp only [doAft, cvEnq]; split <;> simp_all [chq]
    | genRel => simp only [doAft]; split <;> simp_all [chq]
    | exitTail => simp only [doAft]; split <;> simp_all [chq]
    | fin a => simp [doAft, doFin, chq]
  case h_8 => cases h; simp [chq]
  case h_9 b _ => cases h; cases b <;> simp only [afterBlk] <;> (repeat' split) <;> simp [chq]
  case h_10 hp =>
    (split at h) <;> cases h
    · unfold doCancel; chq_tac
    · simp [hp, chq]
  case h_11 hp =>
    (split at h) <;> cases h
    · unfold doRelock finishLock; chq_tac
    · simp [hp, chq]
  case h_12 => cases h; simp [chq]
  case h_13 a hp =>
    cases h
    unfold doExit; (repeat' split)
    · simp [upd_co, hp, chq]
    · exact exitNotify_pc _ _ _ (by simp [hp, chq])
    · exact exitNotify_pc _ _ _ (by simp [hp, chq])

/-! ## The invariant -/

structure ChanOk (s : S) (k : Nat) (ch : Chan) : Prop where
  len : ch.buf.length ≤ ch.cap
  rcv : ch.qrecv = true → ∀ n ∈ s.lists (.chanQ k), (s.co n.owner).pc ≠ .blk .send
  snd : ch.qrecv = false → ∀ n ∈ s.lists (.chanQ k), (s.co n.owner).pc = .blk .send
  full : ch.qrecv = false → s.lists (.chanQ k) ≠ [] → ch.buf.length = ch.cap
  emp : ch.qrecv = true → s.lists (.chanQ k) ≠ [] → ch.buf = []
  rcl : ch.rclosed = true → ch.sclosed = true ∧ ch.buf = [] ∧ s.lists (.chanQ k) = []

def QOk (s : S) (k : Nat) : Prop :=
  (s.chan k = none → s.lists (.chanQ k) = []) ∧ ∀ ch, s.chan k = some ch → ChanOk s k ch

structure InvC (s : S) : Prop where
  fresh : ∀ k, s.nchan ≤ k → s.chan k = none
  ok : s.fault = false → ∀ k, QOk s k

/-- the fields of a channel the invariant is about -/
def core (ch : Chan) : Bool × Bool × Bool × Nat × List Msg := (ch.sclosed, ch.rclosed, ch.qrecv, ch.cap, ch.buf)

theorem sub_ne {α : Type} {a b : List α} (h : a.Sublist b) (ha : a ≠ []) : b ≠ [] := by
  intro e; subst e; exact ha (List.sublist_nil.1 h)

theorem QOk.mono {s t : S} {k : Nat} (h : QOk s k) (hc : (t.chan k).map core = (s.chan k).map core)
    (hq : (t.lists (.chanQ k)).Sublist (s.lists (.chanQ k)))
    (hp : ∀ n ∈ t.lists (.chanQ k), (t.co n.owner).pc = (s.co n.owner).pc) : QOk t k := by
  constructor
  · intro hn
    rw [hn] at hc
    have : s.chan k = none := by cases e : s.chan k <;> simp [e] at hc ⊢
    exact List.sublist_nil.1 (by rw [← h.1 this]; exact hq)
  · intro ch he
    rw [he] at hc
    cases e : s.chan k with
    | none => simp [e] at hc
    | some ch0 =>
      have h0 := h.2 ch0 e
      simp only [e, Option.map_some, Option.some.injEq, core, Prod.mk.injEq] at hc
      obtain ⟨h1, h2, h3, h4, h5⟩ := hc
      refine ⟨?_, ?_, ?_, ?_, ?_, ?_⟩
      · rw [h5, h4]; exact h0.len
      · intro hr n hn; rw [hp n hn]; exact h0.rcv (h3 ▸ hr) n (hq.subset hn)
      · intro hr n hn; rw [hp n hn]; exact h0.snd (h3 ▸ hr) n (hq.subset hn)
      · intro hr hn; rw [h5, h4]; exact h0.full (h3 ▸ hr) (sub_ne hq hn)
      · intro hr hn; rw [h5]; exact h0.emp (h3 ▸ hr) (sub_ne hq hn)
      · intro hr
        obtain ⟨a, b, c⟩ := h0.rcl (h2 ▸ hr)
        exact ⟨h1 ▸ a, h5 ▸ b, List.sublist_nil.1 (c ▸ hq)⟩

/-! ## The loops -/

theorem map_core_lok (o : Option Chan) (b : Bool) (m : Msg) :
    (o.map (fun ch => { ch with lok := b, lmsg := m })).map core = o.map core := by cases o <;> rfl

theorem sendLoop_core (s : S) (c : Nat) (m : Msg) (q : List Node) (k : Nat) :
    (((sendLoop s c m q).1).chan k).map core = (s.chan k).map core := by
  induction q with
  | nil => rfl
  | cons n q ih =>
    cases n with
    | co r => rfl
    | case r idx =>
      simp only [sendLoop]; split
      · exact ih
      · simp only [note_chan]; split
        · subst_vars; cases s.chan _ <;> rfl
        · rfl

theorem sendTry_core (s : S) (c : Nat) (m : Msg) (ch : Chan) (k : Nat) :
    (((sendTry s c m ch).1).chan k).map core = (s.chan k).map core := by
  unfold sendTry; split
  · exact sendLoop_core ..
  · rfl

theorem sendLoop_none (s : S) (c : Nat) (m : Msg) (q : List Node) (h : (sendLoop s c m q).2 = none) :
    (sendLoop s c m q).1 = setList s (.chanQ c) [] := by
  induction q with
  | nil => rfl
  | cons n q ih =>
    cases n with
    | co r => simp [sendLoop] at h
    | case r idx =>
      simp only [sendLoop] at h ⊢; split
      · rename_i hr; simp only [hr, ne_eq, not_true_eq_false, if_false, not_false_eq_true, if_true] at h; exact ih h
      · rename_i hr; rw [if_neg hr] at h; simp at h

theorem bcastLoop_core (s : S) (c : Nat) (m : Msg) (q : List Node) (k : Nat) :
    (((bcastLoop s c m q).1).chan k).map core = (s.chan k).map core := by
  induction q generalizing s with
  | nil => rfl
  | cons n q ih =>
    cases n with
    | co r => simp only [bcastLoop]; rw [ih]; rfl
    | case r idx =>
      simp only [bcastLoop]; split
      · exact ih s
      · dsimp only; rw [ih]; simp only [schedResume_chan, note_chan]; split
        · subst_vars; cases s.chan _ <;> rfl
        · rfl

theorem bcastLoop_nil (s : S) (c : Nat) (m : Msg) (q : List Node) : (bcastLoop s c m q).1.lists (.chanQ c) = [] := by
  induction q generalizing s with
  | nil => simp [bcastLoop, setList_lists]
  | cons n q ih =>
    cases n with
    | co r => simp only [bcastLoop]; exact ih _
    | case r idx =>
      simp only [bcastLoop]; split
      · exact ih s
      · exact ih _

theorem closeLoop_core (s : S) (c : Nat) (q : List Node) (k : Nat) :
    ((closeLoop s c q).chan k).map core = (s.chan k).map core := by
  induction q generalizing s with
  | nil => rfl
  | cons n q ih =>
    cases n with
    | co r => simp only [closeLoop]; rw [ih]; rfl
    | case r idx =>
      simp only [closeLoop]; split
      · exact ih s
      · rw [ih]; simp only [schedResume_chan]; split
        · subst_vars; cases s.chan _ <;> rfl
        · rfl

theorem closeLoop_nil (s : S) (c : Nat) (q : List Node) : (closeLoop s c q).lists (.chanQ c) = [] := by
  induction q generalizing s with
  | nil => simp [closeLoop, setList_lists]
  | cons n q ih =>
    cases n with
    | co r => simp only [closeLoop]; exact ih _
    | case r idx =>
      simp only [closeLoop]; split
      · exact ih s
      · exact ih _

theorem schedResume_other (s : S) (r : Nat) {L : LName} (h : L ≠ .resumers) : ((schedResume s r).lists L).Sublist (s.lists L) := by
  have e : (schedResume s r).lists L = (push s .resumers (.co r)).lists L := rfl
  rw [e]; simp only [push, setList_lists, if_neg h]; exact rm_sub _ _ _

theorem bcastLoop_other (s : S) (c : Nat) (m : Msg) (q : List Node) {L : LName} (h : L ≠ .chanQ c) (h2 : L ≠ .resumers) :
    ((bcastLoop s c m q).1.lists L).Sublist (s.lists L) := by
  induction q generalizing s with
  | nil => simp [bcastLoop, setList_lists, h]
  | cons n q ih =>
    cases n with
    | co r =>
      simp only [bcastLoop]; refine (ih _).trans ((schedResume_other _ _ h2).trans ?_)
      simp [setList_lists, h]
    | case r idx =>
      simp only [bcastLoop]; split
      · exact ih s
      · refine (ih _).trans ((schedResume_other _ _ h2).trans ?_)
        simp [setList_lists, h]

theorem closeLoop_other (s : S) (c : Nat) (q : List Node) {L : LName} (h : L ≠ .chanQ c) (h2 : L ≠ .resumers) :
    ((closeLoop s c q).lists L).Sublist (s.lists L) := by
  induction q generalizing s with
  | nil => simp [closeLoop, setList_lists, h]
  | cons n q ih =>
    cases n with
    | co r =>
      simp only [closeLoop]; refine (ih _).trans ((schedResume_other _ _ h2).trans ?_)
      simp [setList_lists, h]
    | case r idx =>
      simp only [closeLoop]; split
      · exact ih s
      · refine (ih _).trans ((schedResume_other _ _ h2).trans ?_)
        simp [setList_lists, h]

/-! ## Preservation -/

theorem QOk.op {s t : S} {k i : Nat} (h : QOk s k) (hv : ∀ j, j ≠ i → (t.co j).pc = (s.co j).pc) (hf : Free s i)
    (hq : (t.lists (.chanQ k)).Sublist (s.lists (.chanQ k))) (hc : (t.chan k).map core = (s.chan k).map core) : QOk t k := by
  refine h.mono hc hq (fun n hn => hv _ ?_)
  intro e
  rcases hf _ n (hq.subset hn) e with h | h <;> cases h

theorem view_pc {c d : Co} (h : view c = view d) : c.pc = d.pc := by
  simp only [view, Prod.mk.injEq] at h; exact h.1

theorem push_ne {s : S} {L K : LName} {n : Node} (h : K ≠ L) : ((push s L n).lists K).Sublist (s.lists K) := by
  simp only [push, setList_lists, if_neg h]; exact rm_sub _ _ _

/-- a queue that is empty satisfies the invariant if the flags do -/
theorem QOk.nil {t : S} {k : Nat} {ch : Chan} (hc : t.chan k = some ch) (hq : t.lists (.chanQ k) = [])
    (hl : ch.buf.length ≤ ch.cap) (hr : ch.rclosed = true → ch.sclosed = true ∧ ch.buf = []) : QOk t k := by
  constructor
  · intro e; rw [hc] at e; cases e
  · intro ch' e
    rw [hc] at e; cases e
    refine ⟨hl, ?_, ?_, ?_, ?_, fun h => ⟨(hr h).1, (hr h).2, hq⟩⟩ <;> simp [hq]

section
variable {s : S} {i : Nat} (hf : Free s i) (hu : ∀ k, QOk s k)
include hf hu

theorem QOk.chanSend (c : Nat) (m : Msg) (dl : Int) (hft : (chanSend s i c m dl).fault = false) (k : Nat) :
    QOk (chanSend s i c m dl) k := by
  have hv : ∀ j, j ≠ i → ((Rt.chanSend s i c m dl).co j).pc = (s.co j).pc := fun j hj => view_pc (chanSend_view hj s c m dl)
  revert hv hft
  unfold Rt.chanSend; dsimp only
  split
  · intro hft; simp at hft
  · rename_i ch hc
    intro _
    split
    · intro hv; exact (hu k).op hv hf (List.Sublist.refl _) rfl
    split
    · intro hv; exact (hu k).op hv hf (List.Sublist.refl _) rfl
    split
    · intro hv
      refine (hu k).op hv hf ?_ ?_
      · exact sendTry_sub (note s (.put c i m)) c m ch _
      · exact sendTry_core (note s (.put c i m)) c m ch k
    · rename_i hn
      have hok := (hu c).2 ch hc
      have hst : (sendTry (note s (.put c i m)) c m ch).1 =
          if ch.qrecv = true then setList (note s (.put c i m)) (.chanQ c) [] else note s (.put c i m) := by
        revert hn; unfold sendTry; split
        · intro hn; exact sendLoop_none _ _ _ _ hn
        · intro _; rfl
      have hsub : ∀ L, ((sendTry (note s (.put c i m)) c m ch).1.lists L).Sublist (s.lists L) :=
        sendTry_sub (note s (.put c i m)) c m ch
      have hco : (sendTry (note s (.put c i m)) c m ch).1.chan = s.chan := by rw [hst]; split <;> rfl
      have hcc : (sendTry (note s (.put c i m)) c m ch).1.co = s.co := by rw [hst]; split <;> rfl
      have hq : ch.qrecv = true → (sendTry (note s (.put c i m)) c m ch).1.lists (.chanQ c) = [] := by
        intro h; rw [hst, if_pos h]; simp [setList_lists]
      generalize sendTry (note s (.put c i m)) c m ch = p at *
      unfold sendRest; split
      · rename_i hlt
        intro hv
        by_cases hk : k = c
        · subst hk
          refine QOk.nil (ch := { ch with buf := ch.buf ++ [m] }) (by simp [setChan]) ?_ (by simp; omega) ?_
          · show p.1.lists (.chanQ k) = []
            cases hr : ch.qrecv with
            | true => exact hq hr
            | false =>
              by_cases h : p.1.lists (.chanQ k) = []
              · exact h
              · have := hok.full hr (sub_ne (hsub _) h); omega
          · intro hr
            have := hok.rcl hr; simp_all
        · refine (hu k).op hv hf (hsub _) ?_
          simp [setChan, hk, hco]
      · rename_i hlt
        intro hv
        by_cases hk : k = c
        · subst hk
          constructor
          · intro e; simp [setChan] at e
          · intro ch' e
            simp [setChan] at e
            subst e
            have hQ : ∀ n ∈ (push p.1 (.chanQ k) (.co i)).lists (.chanQ k), n = .co i ∨ (ch.qrecv = false ∧ n ∈ s.lists (.chanQ k)) := by
              intro n hn'
              rcases mem_push.1 hn' with ⟨h, _⟩ | ⟨_, h⟩
              rotate_left
              · exact .inl h
              · right
                cases hr : ch.qrecv with
                | true => rw [hq hr] at h; cases h
                | false => exact ⟨rfl, (hsub _).subset h⟩
            refine ⟨?_, ?_, ?_, ?_, ?_, ?_⟩
            · exact hok.len
            · intro h; cases h
            · intro _ n hn'
              rcases hQ n (by simpa using hn') with h | ⟨h1, h2⟩
              · subst h; simp [Node.owner]
              · have : n.owner ≠ i := by intro e; rcases hf _ n h2 e with h | h <;> cases h
                rw [hv _ this]; exact hok.snd h1 n h2
            · intro _ _
              have := hok.len; dsimp only; omega
            · intro h; cases h
            · intro h
              have := hok.rcl h; simp_all
        · refine (hu k).op hv hf ?_ ?_
          · simp only [copause_lists, upd_lists, setChan_lists]
            exact (push_ne (by simp [hk])).trans (hsub _)
          · simp [setChan, hk, hco]

theorem QOk.chanBcast (c : Nat) (m : Msg) (k : Nat) (hft : (chanBcast s i c m).fault = false) : QOk (chanBcast s i c m) k := by
  have hv : ∀ j, j ≠ i → ((Rt.chanBcast s i c m).co j).pc = (s.co j).pc := fun j hj => view_pc (chanBcast_view hj s c m)
  revert hv hft
  unfold Rt.chanBcast; dsimp only
  split
  · intro hft; simp at hft
  · rename_i ch hc
    intro _
    split
    · intro hv; exact (hu k).op hv hf (List.Sublist.refl _) rfl
    intro hv
    have hok := (hu c).2 ch hc
    have hcore : ∀ k, ((bcastTry s c m ch).1.chan k).map core = (s.chan k).map core := by
      intro k; unfold bcastTry; split
      · exact bcastLoop_core ..
      · rfl
    refine (hu k).op hv hf ?_ (by simpa using hcore k)
    simp only [yfsr_lists]
    unfold bcastTry; split
    · obtain ⟨o, h1, h2⟩ := (bcastLoop_sub (i := s.sco.nextId + 1) (s := s) c m _ (List.Sublist.refl _)).h (.chanQ k) (by simp) (by simp)
      by_cases hk : k = c
      · subst hk; rw [bcastLoop_nil]; exact List.nil_sublist _
      · exact bcastLoop_other s c m _ (by simp [hk]) (by simp)
    · exact List.Sublist.refl _

omit hf in
theorem QOk.recvNow (hL : InvL s) {c r : Nat} {ch : Chan} (hc : s.chan c = some ch) {m : Msg} {o : Option Nat} {t : S}
    (hr : recvNow s c r ch = some (m, o, t)) : t.fault = s.fault ∧ (∀ k, QOk t k) ∧ (∀ k, k ≠ c → t.chan k = s.chan k) := by
  have hok := (hu c).2 ch hc
  have hcase : ∀ j idx q, s.lists (.chanQ c) = .case j idx :: q → ch.qrecv = false → False := by
    intro j idx q hq hf
    have h1 := hok.snd hf (.case j idx) (by rw [hq]; exact List.mem_cons_self)
    have h2 := hL.pl (.chanQ c) (.case j idx) (by rw [hq]; exact List.mem_cons_self)
    simp only [place] at h2
    rw [h2.1] at h1; cases h1
  have hother : ∀ (u : S) (k : Nat), k ≠ c → u.chan k = s.chan k → u.co = s.co → u.lists (.chanQ k) = s.lists (.chanQ k) → QOk u k := by
    intro u k hk h1 h2 h3
    exact (hu k).mono (by rw [h1]) (by rw [h3]; exact List.Sublist.refl _) (fun n _ => by rw [h2])
  revert hr
  unfold Rt.recvNow
  split
  · rename_i m' buf hb
    split
    · rename_i hq
      intro h; cases h
      refine ⟨rfl, fun k => ?_, fun k hk => by simp [setChan, hk]⟩
      by_cases hk : k = c
      · subst hk
        refine QOk.nil (ch := { ch with buf := buf, rclosed := ch.rclosed || (ch.sclosed && buf.isEmpty) }) (by simp [setChan]) hq ?_ ?_
        · have := hok.len; rw [hb] at this; simp at this ⊢; omega
        · intro h
          cases hrc : ch.rclosed with
          | true => have := hok.rcl hrc; simp_all
          | false => simpa [hrc] using h
      · exact hother _ k hk (by simp [setChan, hk]) rfl (by simp)
    · rename_i j q hq
      intro h; cases h
      have hqr : ch.qrecv = false := by
        cases h : ch.qrecv with
        | false => rfl
        | true => have := hok.emp h (by rw [hq]; simp); rw [hb] at this; cases this
      refine ⟨rfl, fun k => ?_, fun k hk => by simp [setChan, hk]⟩
      by_cases hk : k = c
      · subst hk
        constructor
        · intro e; simp [setChan] at e
        · intro ch' e
          simp [setChan] at e
          subst e
          have hfull := hok.full hqr (by rw [hq]; simp)
          rw [hb] at hfull
          refine ⟨?_, ?_, ?_, ?_, ?_, ?_⟩
          · simp at hfull ⊢; omega
          · intro h; simp [hqr] at h
          · intro _ n hn
            refine hok.snd hqr n ?_
            rw [hq]; exact List.mem_cons_of_mem _ (by simpa [setList_lists] using hn)
          · intro _ _; simp at hfull ⊢; omega
          · intro h; simp [hqr] at h
          · intro h; have := hok.rcl h; rw [hb] at this; simp at this
      · exact hother _ k hk (by simp [setChan, hk]) rfl (by simp [setList_lists, hk])
    · rename_i j idx q hq
      intro _
      exfalso
      refine hcase _ _ _ hq ?_
      cases h : ch.qrecv with
      | false => rfl
      | true => have := hok.emp h (by rw [hq]; simp); rw [hb] at this; cases this
  · rename_i hb
    split
    · intro h; cases h
    · rename_i n q hq
      split
      · intro h; cases h
      · rename_i hqr
        simp only [Bool.not_eq_true] at hqr
        split
        · rename_i j
          intro h; cases h
          refine ⟨rfl, fun k => ?_, fun k hk => by simp [setChan, hk]⟩
          have hfull := hok.full hqr (by rw [hq]; simp)
          by_cases hk : k = c
          · subst hk
            constructor
            · intro e; simp [setChan] at e
            · intro ch' e
              simp [setChan] at e
              subst e
              refine ⟨hok.len, ?_, ?_, ?_, ?_, ?_⟩
              · intro h; simp [hqr] at h
              · intro _ n hn
                refine hok.snd hqr n ?_
                rw [hq]; exact List.mem_cons_of_mem _ (by simpa [setList_lists] using hn)
              · intro _ _; exact hfull
              · intro h; simp [hqr] at h
              · intro h
                have hq' : ch.rclosed = false := by
                  cases hrc : ch.rclosed with
                  | false => rfl
                  | true => have := (hok.rcl hrc).2.2; rw [hq] at this; cases this
                simp [hq'] at h
                simp [setList_lists, h, hb]
          · exact hother _ k hk (by simp [setChan, hk]) rfl (by simp [setList_lists, hk])
        · exact (hcase _ _ _ hq hqr).elim

theorem QOk.chanRecv (hL : InvL s) (c : Nat) (try' : Bool) (dl : Int) (hft : (chanRecv s i c try' dl).fault = false) (k : Nat) :
    QOk (chanRecv s i c try' dl) k := by
  have hv : ∀ j, j ≠ i → ((Rt.chanRecv s i c try' dl).co j).pc = (s.co j).pc := fun j hj => view_pc (chanRecv_view hj s c try' dl)
  revert hv hft
  unfold Rt.chanRecv; dsimp only
  split
  · intro hft; simp at hft
  · rename_i ch hc
    intro _
    have hok := (hu c).2 ch hc
    split
    · intro hv; exact (hu k).op hv hf (List.Sublist.refl _) rfl
    rename_i hrc
    split
    · intro hv; exact (hu k).op hv hf (List.Sublist.refl _) rfl
    split
    · rename_i m snd t hr
      intro hv
      have h1 := QOk.recvNow hu hL hc hr
      refine (h1.2.1 k).op (i := i) ?_ (hf.recvNow hr) (by simp) (by simp)
      intro j hj
      rw [hv j hj, recvNow_co' hr]
    · rename_i hr
      split
      · intro hv; exact (hu k).op hv hf (List.Sublist.refl _) rfl
      · intro hv
        by_cases hk : k = c
        · subst hk
          have hb : ch.buf = [] ∧ (s.lists (.chanQ k) = [] ∨ ch.qrecv = true) := by
            unfold Rt.recvNow at hr
            (repeat' split at hr) <;> first | cases hr | skip
            · exact ⟨by assumption, .inl (by assumption)⟩
            · exact ⟨by assumption, .inr (by assumption)⟩
          constructor
          · intro e; simp [setChan] at e
          · intro ch' e
            simp [setChan] at e
            subst e
            refine ⟨hok.len, ?_, ?_, ?_, ?_, ?_⟩
            · intro _ n hn'
              have hn' : n ∈ (push s (.chanQ k) (.co i)).lists (.chanQ k) := by simpa using hn'
              rcases mem_push.1 hn' with ⟨h, _⟩ | ⟨_, h⟩
              · have hi : n.owner ≠ i := by intro e; rcases hf _ n h e with h | h <;> cases h
                rw [hv _ hi]
                rcases hb.2 with h' | h'
                · rw [h'] at h; cases h
                · exact hok.rcv h' n h
              · subst h; simp [Node.owner]
            · intro h; cases h
            · intro h; cases h
            · intro _ _; exact hb.1
            · intro h; exact absurd h hrc
        · refine (hu k).op hv hf ?_ (by simp [setChan, hk])
          simp only [copause_lists, upd_lists, setChan_lists]
          exact push_ne (by simp [hk])

theorem QOk.chanClose1 (c : Nat) {ch : Chan} (hc : s.chan c = some ch) (hs : ch.sclosed = false) (a : Aft) (k : Nat) :
    QOk (chanClose1 s i c ch a) k := by
  have hv : ∀ j, j ≠ i → ((Rt.chanClose1 s i c ch a).co j).pc = (s.co j).pc := fun j hj => view_pc (chanClose1_view hj s c ch a)
  revert hv
  have hok := (hu c).2 ch hc
  have hrc : ch.rclosed = false := by
    cases h : ch.rclosed with
    | false => rfl
    | true => have := (hok.rcl h).1; rw [hs] at this; cases this
  unfold Rt.chanClose1; dsimp only
  split
  · intro hv
    by_cases hk : k = c
    · subst hk
      constructor
      · intro e; simp [setChan] at e
      · intro ch' e
        simp [setChan] at e
        subst e
        have hne : ∀ n ∈ s.lists (.chanQ k), n.owner ≠ i := by
          intro n h e; rcases hf _ n h e with h | h <;> cases h
        refine ⟨hok.len, ?_, ?_, hok.full, hok.emp, ?_⟩
        · intro h n hn; rw [hv _ (hne n hn)]; exact hok.rcv h n hn
        · intro h n hn; rw [hv _ (hne n hn)]; exact hok.snd h n hn
        · intro h; simp [hrc] at h
    · exact (hu k).op hv hf (List.Sublist.refl _) (by simp [setChan, hk])
  · rename_i hcond
    have hbuf : ch.buf = [] := Classical.byContradiction (fun h => hcond (.inl h))
    intro hv
    by_cases hk : k = c
    · subst hk
      have hcl := closeLoop_core (setChan s k { ch with sclosed := true }) k ((setChan s k { ch with sclosed := true }).lists (.chanQ k)) k
      cases e : (closeLoop (setChan s k { ch with sclosed := true }) k ((setChan s k { ch with sclosed := true }).lists (.chanQ k))).chan k with
      | none => rw [e] at hcl; simp [setChan] at hcl
      | some ch1 =>
        rw [e] at hcl
        simp [setChan, core] at hcl
        obtain ⟨h1, h2, h3, h4, h5⟩ := hcl
        refine QOk.nil (ch := { ch1 with rclosed := true, qrecv := false }) ?_ ?_ ?_ ?_
        · simp only [yfsr_chan, closeEnd, if_pos, e, Option.map_some]
        · simp only [yfsr_lists, closeEnd_lists]; exact closeLoop_nil ..
        · simp [h5, hbuf]
        · intro _; simp [h5, hbuf, h1]
    · refine (hu k).op hv hf ?_ ?_
      · simp only [yfsr_lists, closeEnd_lists]
        exact closeLoop_other (setChan s c { ch with sclosed := true }) c _ (by simp [hk]) (by simp)
      · simp only [yfsr_chan, closeEnd, if_neg hk]
        rw [closeLoop_core]; simp [setChan, hk]

theorem QOk.chanClose (c : Nat) (hft : (chanClose s i c).fault = false) (k : Nat) : QOk (chanClose s i c) k := by
  revert hft
  unfold Rt.chanClose
  split
  · intro h; simp at h
  · rename_i ch hc
    intro _
    split
    · exact (hu k).op (i := i) (fun j hj => by rw [retv_co, if_neg hj]) hf (List.Sublist.refl _) rfl
    · rename_i hs; exact QOk.chanClose1 hf hu c hc (by simpa using hs) _ k

end

/-- the scan found nothing: every channel of the list is open, empty, and has no waiting sender -/
theorem selScan_none {s : S} {j : Nat} {cs : List Nat} (h : selScan s j cs = none) {c : Nat} (hc : c ∈ cs) {ch : Chan}
    (he : s.chan c = some ch) : (s.lists (.chanQ c) = [] ∨ ch.qrecv = true) ∧ ch.buf = [] ∧ ch.rclosed = false := by
  induction cs generalizing j with
  | nil => cases hc
  | cons d cs ih =>
    simp only [selScan] at h
    rcases List.mem_cons.1 hc with rfl | hm
    · rw [he] at h
      simp only at h
      split at h
      · cases h
      · rename_i hn
        simp only [not_or, not_and] at hn
        refine ⟨?_, ?_, ?_⟩
        · by_cases hl : s.lists (.chanQ c) = []
          · exact .inl hl
          · right; have := hn.1 hl; simpa using this
        · exact Classical.byContradiction (fun x => hn.2.1 x)
        · simpa using hn.2.2
    · split at h
      · exact ih h hm
      · split at h
        · cases h
        · exact ih h hm

theorem selScan_some {s : S} {j : Nat} {cs : List Nat} {k c : Nat} (h : selScan s j cs = some (k, c)) :
    ∃ ch, s.chan c = some ch ∧ ((s.lists (.chanQ c) ≠ [] ∧ ch.qrecv = false) ∨ ch.buf ≠ [] ∨ ch.rclosed = true) ∧
      j ≤ k ∧ cs[k - j]? = some c := by
  induction cs generalizing j with
  | nil => simp [selScan] at h
  | cons d cs ih =>
    simp only [selScan] at h
    have hrec : selScan s (j + 1) cs = some (k, c) → ∃ ch, s.chan c = some ch ∧
        ((s.lists (.chanQ c) ≠ [] ∧ ch.qrecv = false) ∨ ch.buf ≠ [] ∨ ch.rclosed = true) ∧
        j ≤ k ∧ (d :: cs)[k - j]? = some c := fun h' => by
      obtain ⟨ch, h1, h2, h3, h4⟩ := ih h'
      refine ⟨ch, h1, h2, by omega, ?_⟩
      have : k - j = (k - (j + 1)) + 1 := by omega
      rw [this]; simpa using h4
    split at h
    · exact hrec h
    · split at h
      · rename_i ch he hcond
        simp only [Option.some.injEq, Prod.mk.injEq] at h
        obtain ⟨rfl, rfl⟩ := h
        exact ⟨ch, he, hcond, Nat.le_refl _, by simp⟩
      · exact hrec h

/-- what pushing the cases does to the channels and queues -/
theorem selPush_chan (s : S) (i j : Nat) (cs : List Nat) (k : Nat) :
    (selPush s i j cs).chan k = if k ∈ cs then (s.chan k).map (fun ch => { ch with qrecv := true }) else s.chan k := by
  induction cs generalizing s j with
  | nil => simp [selPush]
  | cons d cs ih =>
    simp only [selPush]; rw [ih]; dsimp only
    by_cases hd : k = d
    · subst hd
      simp only [push_chan, if_true, List.mem_cons, true_or, Option.map_map]
      split
      · cases s.chan k <;> rfl
      · rfl
    · simp [hd, push_chan]

theorem selPush_mem (s : S) (i j : Nat) (cs : List Nat) (L : LName) (n : Node) (h : n ∈ (selPush s i j cs).lists L) :
    n ∈ s.lists L ∨ (n.owner = i ∧ ∃ c ∈ cs, L = .chanQ c) := by
  induction cs generalizing s j with
  | nil => exact .inl h
  | cons d cs ih =>
    simp only [selPush] at h
    rcases ih _ _ h with h' | ⟨h1, c, h2, h3⟩
    · rcases mem_push.1 h' with ⟨h1, _⟩ | ⟨h1, h''⟩
      · exact .inl h1
      · right; subst h''; exact ⟨rfl, d, List.mem_cons_self, h1⟩
    · exact .inr ⟨h1, c, List.mem_cons_of_mem _ h2, h3⟩

theorem QOk.chanSelect {s : S} {i : Nat} (hf : Free s i) (hu : ∀ k, QOk s k) (hL : InvL s) (cs : List Nat) (try' : Bool) (dl : Int)
    (hft : (chanSelect s i cs dl try').fault = false) (k : Nat) : QOk (chanSelect s i cs dl try') k := by
  have hv : ∀ j, j ≠ i → ((Rt.chanSelect s i cs dl try').co j).pc = (s.co j).pc := fun j hj => view_pc (chanSelect_view hj s cs try' dl)
  revert hv hft
  unfold Rt.chanSelect; dsimp only
  split
  · intro h; simp at h
  rename_i hany
  split
  · intro _ hv; exact (hu k).op hv hf (List.Sublist.refl _) rfl
  split
  · split
    · intro h; simp at h
    · split
      · intro _ hv; exact (hu k).op hv hf (List.Sublist.refl _) rfl
      · split
        · rename_i c _ _ ch hc _ _ m snd t hr
          intro _ hv
          have h1 := QOk.recvNow hu hL hc hr
          refine (h1.2.1 k).op (i := i) ?_ (hf.recvNow hr) (by simp) ?_
          · intro j hj
            rw [hv j hj, recvNow_co' hr]
          · simp only [resumeOpt_chan, setPc_chan]
            split
            · subst_vars; cases t.chan _ <;> rfl
            · rfl
        · intro h; simp at h
  · rename_i hs
    split
    · intro _ hv; exact (hu k).op hv hf (List.Sublist.refl _) rfl
    · intro _ hv
      have hmem : ∀ n, n ∈ (copause { selPush (upd s i (fun k => { k with retIdx := -1 })) i 0 cs with
          nreceivers := (selPush (upd s i (fun k => { k with retIdx := -1 })) i 0 cs).nreceivers + 1 } i dl .sel).lists (.chanQ k) →
          (n ∈ s.lists (.chanQ k) ∧ n.owner ≠ i) ∨ (n.owner = i ∧ k ∈ cs) := by
        intro n hn
        simp only [copause_lists] at hn
        rcases selPush_mem _ _ _ _ _ _ hn with h | ⟨h1, c, h2, h3⟩
        · refine .inl ⟨h, fun e => ?_⟩
          rcases hf _ n h e with h | h <;> cases h
        · right; cases h3; exact ⟨h1, h2⟩
      have hchan : (copause { selPush (upd s i (fun k => { k with retIdx := -1 })) i 0 cs with
          nreceivers := (selPush (upd s i (fun k => { k with retIdx := -1 })) i 0 cs).nreceivers + 1 } i dl .sel).chan k =
          if k ∈ cs then (s.chan k).map (fun ch => { ch with qrecv := true }) else s.chan k := by
        simp only [copause_chan]; rw [selPush_chan]; rfl
      have hpc := copause_pc { selPush (upd s i (fun k => { k with retIdx := -1 })) i 0 cs with
          nreceivers := (selPush (upd s i (fun k => { k with retIdx := -1 })) i 0 cs).nreceivers + 1 } i dl .sel
      generalize copause { selPush (upd s i (fun k => { k with retIdx := -1 })) i 0 cs with
          nreceivers := (selPush (upd s i (fun k => { k with retIdx := -1 })) i 0 cs).nreceivers + 1 } i dl .sel = t at *
      by_cases hk : k ∈ cs
      · rw [if_pos hk] at hchan
        constructor
        · intro e
          rw [e] at hchan
          have : s.chan k = none := by cases h : s.chan k <;> simp [h] at hchan ⊢
          exact absurd (by rw [List.any_eq_true]; exact ⟨k, hk, by simp [this]⟩) hany
        · intro ch' e
          rw [e] at hchan
          cases h0 : s.chan k with
          | none => simp [h0] at hchan
          | some ch =>
            have hok := (hu k).2 ch h0
            simp only [h0, Option.map_some, Option.some.injEq] at hchan
            subst hchan
            obtain ⟨h1, h2, h3⟩ := selScan_none hs hk h0
            refine ⟨hok.len, ?_, ?_, ?_, ?_, ?_⟩
            · intro _ n hn
              rcases hmem n hn with ⟨h, h'⟩ | ⟨h, _⟩
              · rw [hv _ h']
                rcases h1 with h1 | h1
                · rw [h1] at h; cases h
                · exact hok.rcv h1 n h
              · rw [h, hpc]; simp
            · intro h; cases h
            · intro h; cases h
            · intro _ _; exact h2
            · intro h; simp [h3] at h
      · rw [if_neg hk] at hchan
        have hsub : ∀ n ∈ t.lists (.chanQ k), n ∈ s.lists (.chanQ k) ∧ n.owner ≠ i := by
          intro n hn
          rcases hmem n hn with h | ⟨_, h⟩
          · exact h
          · exact absurd h hk
        have hne : t.lists (.chanQ k) ≠ [] → s.lists (.chanQ k) ≠ [] := by
          intro h e
          cases hl : t.lists (.chanQ k) with
          | nil => exact h hl
          | cons n q => have := (hsub n (by rw [hl]; exact List.mem_cons_self)).1; rw [e] at this; cases this
        constructor
        · intro e
          rw [e] at hchan
          exact Classical.byContradiction (fun h => hne h ((hu k).1 hchan.symm))
        · intro ch e
          rw [e] at hchan
          have hok := (hu k).2 ch hchan.symm
          refine ⟨hok.len, ?_, ?_, fun h h' => hok.full h (hne h'), fun h h' => hok.emp h (hne h'), ?_⟩
          · intro h n hn; rw [hv _ (hsub n hn).2]; exact hok.rcv h n (hsub n hn).1
          · intro h n hn; rw [hv _ (hsub n hn).2]; exact hok.snd h n (hsub n hn).1
          · intro h
            refine ⟨(hok.rcl h).1, (hok.rcl h).2.1, ?_⟩
            exact Classical.byContradiction (fun h' => hne h' (hok.rcl h).2.2)

/-! ## Which channels exist -/

theorem some_of_core {o p : Option Chan} (h : o.map core = p.map core) (ho : o.isSome = true) : p.isSome = true := by
  cases o <;> cases p <;> simp_all

theorem chanSend_dom (s : S) (i c : Nat) (m : Msg) (dl : Int) (k : Nat) (h : ((chanSend s i c m dl).chan k).isSome = true) :
    (s.chan k).isSome = true := by
  revert h
  unfold chanSend; dsimp only
  split
  · exact id
  · rename_i ch hc
    have h1 := sendTry_core (note s (.put c i m)) c m ch k
    (repeat' split)
    · exact id
    · exact id
    · intro h; exact some_of_core h1 (by simpa using h)
    · unfold sendRest; split <;> intro h
      · by_cases hk : k = c
        · subst hk; simp [hc]
        · exact some_of_core h1 (by simpa [setChan, hk] using h)
      · by_cases hk : k = c
        · subst hk; simp [hc]
        · exact some_of_core h1 (by simpa [setChan, hk] using h)

theorem chanBcast_dom (s : S) (i c : Nat) (m : Msg) (k : Nat) (h : ((chanBcast s i c m).chan k).isSome = true) :
    (s.chan k).isSome = true := by
  revert h
  unfold chanBcast; dsimp only
  split
  · exact id
  split
  · exact id
  intro h
  unfold bcastTry at h; simp only [yfsr_chan] at h; split at h
  · exact some_of_core (bcastLoop_core ..) h
  · exact h

theorem recvNow_dom {s : S} {c r : Nat} {ch : Chan} (hc : s.chan c = some ch) {m : Msg} {o : Option Nat} {t : S}
    (hr : recvNow s c r ch = some (m, o, t)) (k : Nat) (h : (t.chan k).isSome = true) : (s.chan k).isSome = true := by
  by_cases hk : k = c
  · subst hk; simp [hc]
  · revert hr; unfold recvNow; (repeat' split) <;> intro hr <;> cases hr <;> simpa [setChan, hk] using h

theorem chanRecv_dom (s : S) (i c : Nat) (t : Bool) (dl : Int) (k : Nat) (h : ((chanRecv s i c t dl).chan k).isSome = true) :
    (s.chan k).isSome = true := by
  revert h
  unfold chanRecv; dsimp only
  split
  · exact id
  rename_i ch hc
  (repeat' split)
  · exact id
  · exact id
  · rename_i hr; intro h; exact recvNow_dom hc hr k (by simpa using h)
  · exact id
  · intro h
    by_cases hk : k = c
    · subst hk; simp [hc]
    · simpa [setChan, hk] using h

theorem chanClose1_dom (s : S) (i c : Nat) {ch : Chan} (hc : s.chan c = some ch) (a : Aft) (k : Nat)
    (h : ((chanClose1 s i c ch a).chan k).isSome = true) : (s.chan k).isSome = true := by
  revert h
  unfold chanClose1; dsimp only
  by_cases hk : k = c
  · subst hk; simp [hc]
  split
  · intro h; simpa [setChan, hk] using h
  · intro h
    simp only [yfsr_chan, closeEnd, if_neg hk] at h
    have := some_of_core (closeLoop_core ..) h
    simpa [setChan, hk] using this

theorem chanClose_dom (s : S) (i c : Nat) (k : Nat) (h : ((chanClose s i c).chan k).isSome = true) : (s.chan k).isSome = true := by
  revert h
  unfold chanClose
  (repeat' split)
  · exact id
  · exact id
  · exact chanClose1_dom _ _ _ (by assumption) _ _

theorem chanSelect_dom (s : S) (i : Nat) (cs : List Nat) (t : Bool) (dl : Int) (k : Nat) (h : ((chanSelect s i cs dl t).chan k).isSome = true) :
    (s.chan k).isSome = true := by
  revert h
  unfold chanSelect; dsimp only
  (repeat' split)
  · exact id
  · exact id
  · exact id
  · exact id
  · rename_i hc _ _ _ _ _ hr
    intro h
    refine recvNow_dom hc hr k ?_
    simp only [resumeOpt_chan, setPc_chan] at h
    split at h
    · subst_vars; simpa using h
    · exact h
  · exact id
  · exact id
  · intro h
    simp only [copause_chan, selPush_chan] at h
    split at h <;> simpa using h

theorem chanRelease_dom (s : S) (c k : Nat) (h : ((chanRelease s c).chan k).isSome = true) : (s.chan k).isSome = true := by
  revert h
  unfold chanRelease
  split
  · exact id
  rename_i hc
  by_cases hk : k = c
  · subst hk; simp [hc]
  split <;> intro h <;> simpa [setChan, hk] using h

theorem exitNotify_dom (s : S) (i : Nat) (a : Bool) (k : Nat) (h : ((exitNotify s i a).chan k).isSome = true) : (s.chan k).isSome = true := by
  revert h
  unfold exitNotify; dsimp only
  (repeat' split) <;> intro h
  · simpa using h
  · simpa using h
  · simpa using h
  · have := chanClose1_dom _ _ _ (by assumption) _ _ h
    simpa using this

/-- the calls that change no channel -/
def Call.noChan : Call → Bool
  | .send .. | .bcast .. | .recv .. | .tryrecv .. | .close .. | .select .. | .tryselect .. | .genYield .. | .chMake .. | .chRetain ..
  | .chRelease .. | .genStart => false
  | _ => true

theorem doCall_chan (s : S) (i : Nat) (c : Call) (h : c.noChan = true) : (doCall s i c).chan = s.chan := by
  cases c <;> first | (simp [Call.noChan] at h; done) | skip
  all_goals simp [doCall]

end Neco.Rt
