import Verif.Proof.RtCancel2
import Verif.Proof.RtFrom
import Verif.Proof.RtMsg5
import Verif.Proof.RtSig2
/-!
# The slot of a channel that `neco_chan_case` reads
-/
namespace Neco.Rt
open Neco.Err

/-! ## Who changes `retIdx` -/

macro "ri_tac" h:term : tactic => `(tactic| (
  first
  | rfl
  | (simp only [retv_co, setPc_co, dlClear_co, upd_co, coyield_co, copause_co, note_co, setChan_co, setMu_co, setWg_co,
      push_co, setList_co, rm_co, scoResume_co, if_neg $h]; done)
  | (simp [retv_co, setPc_co, dlClear_co, upd_co, coyield_co, copause_co, yfsr, $h:term]; done)))

section
variable {i j : Nat} (hj : j ≠ i)
include hj

theorem recvNow_ri {s t : S} {c r : Nat} {ch : Chan} {m : Msg} {o : Option Nat} (h : recvNow s c r ch = some (m, o, t)) : (t.co j).retIdx = (s.co j).retIdx := by
  rw [recvNow_co' h]

theorem chanRecv_ri (s : S) (c : Nat) (t : Bool) (dl : Int) : ((chanRecv s i c t dl).co j).retIdx = (s.co j).retIdx := by
  unfold chanRecv; dsimp only
  (repeat' split) <;> first | rfl | (ri_tac hj) | skip
  rename_i hr
  rw [resumeOpt_co, retv_co, if_neg hj, upd_co, if_neg hj, recvNow_co' hr]

theorem chanSelect_ri (s : S) (cs : List Nat) (t : Bool) (dl : Int) : ((chanSelect s i cs dl t).co j).retIdx = (s.co j).retIdx := by
  unfold chanSelect; dsimp only
  split
  · rfl
  split
  · ri_tac hj
  split
  · split
    · rfl
    split
    · ri_tac hj
    split
    · rename_i hr
      rw [resumeOpt_co, setPc_co, if_neg hj]; simp only [recvNow_co' hr]
    · rfl
  split
  · ri_tac hj
  · rw [copause_co, if_neg hj]; simp [upd_co, hj]

theorem doStart_ri (s : S) (g : Option Nat) (hn : j ≤ s.sco.nextId) : ((doStart s i g).co j).retIdx = (s.co j).retIdx := by
  unfold doStart; dsimp only; rw [if_neg (by omega), upd_co, if_neg hj]

theorem finishLock_ri (s : S) (m : Nat) (rd : Bool) (dl : Int) (b : Blk) :
    ((finishLock s i m rd dl b).co j).retIdx = (s.co j).retIdx := by
  unfold finishLock; dsimp only; ri_tac hj

theorem cvEnq_ri (s : S) (v : Nat) (dl : Int) : ((cvEnq s i v dl).co j).retIdx = (s.co j).retIdx := by
  unfold cvEnq; dsimp only; ri_tac hj

/-- the calls that hand something to waiting selects -/
def Call.hands : Call → Bool
  | .send .. | .bcast .. | .close .. | .genYield .. => true
  | _ => false

theorem doCall_ri (s : S) (c : Call) (hn : j ≤ s.sco.nextId) (hh : c.hands = false) : ((doCall s i c).co j).retIdx = (s.co j).retIdx := by
  cases c <;> first | (simp [Call.hands] at hh; done) | simp only [doCall]
  case start => exact doStart_ri hj _ _ hn
  case genStart => unfold doGenStart; exact doStart_ri (s := { s with nchan := _, chan := _ }) hj _ hn
  case sleep => unfold doSleep; split <;> ri_tac hj
  case join => unfold doJoin; dsimp only; (repeat' split) <;> ri_tac hj
  case suspend => unfold doSuspend; ri_tac hj
  case resume => unfold doResume; (repeat' split) <;> ri_tac hj
  case recv => exact chanRecv_ri hj ..
  case tryrecv => exact chanRecv_ri hj ..
  case select => exact chanSelect_ri hj ..
  case tryselect => exact chanSelect_ri hj ..
  case lock => unfold muLock; dsimp only; (repeat' split) <;> first | ri_tac hj | (rw [finishLock_ri hj]; ri_tac hj)
  case rdlock => unfold muRdlock; dsimp only; (repeat' split) <;> first | ri_tac hj | (rw [finishLock_ri hj]; ri_tac hj)
  case unlock => unfold muUnlock; split <;> ri_tac hj
  case trylock => unfold muTrylock; split <;> ri_tac hj
  case tryrdlock => unfold muTryrdlock; split <;> ri_tac hj
  case wgAdd => unfold wgAdd; dsimp only; (repeat' split) <;> ri_tac hj
  case wgDone => unfold wgDone; dsimp only; (repeat' split) <;> ri_tac hj
  case wgWait => unfold wgWait; dsimp only; (repeat' split) <;> ri_tac hj
  case cvSignal => unfold cvSignal; split <;> ri_tac hj
  case cvBcast => unfold cvBcast; ri_tac hj
  case cvWait => unfold cvWait; (repeat' split) <;> first | ri_tac hj | (rw [cvEnq_ri hj]; simp)
  case sigWait => unfold doSigWait; dsimp only; (repeat' split) <;> ri_tac hj
  case sigWatch => unfold doSigWatch; dsimp only; (repeat' split) <;> ri_tac hj
  case sigUnwatch => unfold doSigUnwatch; dsimp only; (repeat' split) <;> ri_tac hj
  case wait => unfold doWait; dsimp only; (repeat' split) <;> ri_tac hj
  case chRetain => split <;> ri_tac hj
  case chCase => unfold chanCase; (repeat' split) <;> ri_tac hj
  case cpop => unfold doCpop; dsimp only; (repeat' split) <;> ri_tac hj
  all_goals ri_tac hj

theorem tauCo_ri {s s' : S} (h : tauCo s i = some s') (he : ∀ a, (s.co i).pc ≠ .exitRun a) : (s'.co j).retIdx = (s.co j).retIdx := by
  unfold tauCo at h
  split at h
  case h_1 => cases h
  case h_2 => cases h
  case h_3 => cases h
  case h_4 => cases h; unfold doRet; split <;> ri_tac hj
  case h_5 => (repeat' split at h) <;> cases h <;> ri_tac hj
  case h_6 => cases h; ri_tac hj
  case h_7 a _ =>
    cases h
    cases a with
    | ret v => simp only [doAft]; ri_tac hj
    | condEnq => simp only [doAft]; split <;> first | ri_tac hj | (rw [cvEnq_ri hj])
    | genRel => simp only [doAft]; split <;> ri_tac hj
    | exitTail => simp only [doAft]; split <;> ri_tac hj
    | fin a => simp only [doAft, doFin]; ri_tac hj
  case h_8 => cases h; ri_tac hj
  case h_9 b _ =>
    cases h
    obtain ⟨_, e2, _⟩ := preBlk_frame (unpause s i) i b
    have h1 : ((preBlk (unpause s i) i b).co j).retIdx = (s.co j).retIdx := by rw [e2]; simp [unpause]; split <;> simp [upd_co, hj]
    rw [← h1]
    cases b <;> simp only [afterBlk] <;> (repeat' split) <;> ri_tac hj
  case h_10 =>
    (split at h) <;> cases h
    · unfold doCancel; dsimp only; (repeat' split) <;> first
        | ri_tac hj
        | (rw [scoResume_co, setPc_co, if_neg hj, note_co, upd_co]; split <;> first | (subst_vars; rw [dlClear_co, if_neg hj]) | ri_tac hj)
    · ri_tac hj
  case h_11 =>
    (split at h) <;> cases h
    · unfold doRelock; (repeat' split) <;> first | ri_tac hj | (rw [finishLock_ri hj]; ri_tac hj)
    · ri_tac hj
  case h_12 => cases h; ri_tac hj
  case h_13 a hp => exact absurd hp (he a)
end

theorem tauMain_ri {s s' : S} (h : tauMain s = some s') (j : Nat) : (s'.co j).retIdx = (s.co j).retIdx := by
  unfold tauMain at h
  split at h
  · (repeat' split at h) <;> cases h <;> simp
  · cases h; simp
  · cases h
  · cases h
    unfold mSig; dsimp only; (repeat' split) <;> first | rfl | (rw [scoResume_co, note_co]; simp only [upd_co]; split <;> (subst_vars; rfl))
  · cases h; simp only [mDl, wakeAll_co, markDl]; split <;> rfl
  · cases h; rfl
  · cases h; rfl
  · cases h

/-! ## The slot -/

/-- what `neco_chan_case` finds -/
def slot (s : S) (c : Nat) : Option (Bool × Msg) := (s.chan c).map (fun ch => (ch.lok, ch.lmsg))

/-- the messages handed to `i` since its last call -/
def dv (i : Nat) (s : S) : List Ev := (since i s.log).filter (delivTo i)

theorem since_append_no {i : Nat} {es l : List Ev} (h : ∀ e ∈ es, isCallOf i e = false) : since i (es ++ l) = es ++ since i l := by
  unfold since
  rw [List.takeWhile_append_of_pos (by intro e he; simp [h e he])]

theorem dv_append {i : Nat} {es : List Ev} {s t : S} (hl : t.log = es ++ s.log) (h : ∀ e ∈ es, isCallOf i e = false) : dv i t = es.filter (delivTo i) ++ dv i s := by
  unfold dv; rw [hl, since_append_no h, List.filter_append]

theorem dv_same {i : Nat} {s t : S} (hl : t.log = s.log) : dv i t = dv i s := by unfold dv; rw [hl]

/-- the slot is not changed, or the channel is gone -/
def Kept (c : Nat) (s t : S) : Prop := s.nchan ≤ t.nchan ∧ (c < s.nchan → slot t c = slot s c ∨ t.chan c = none)

theorem Kept.of {c : Nat} {s t : S} (h1 : t.nchan = s.nchan) (h2 : slot t c = slot s c) : Kept c s t := ⟨by rw [h1]; exact Nat.le_refl _, fun _ => .inl h2⟩
theorem slot_chan {c : Nat} {s t : S} (h : t.chan = s.chan) : slot t c = slot s c := by unfold slot; rw [h]
theorem slot_map {s : S} {c : Nat} {f : Nat → Option Chan} (g : Chan → Chan) (h : f c = (s.chan c).map g) (hg : ∀ ch, (g ch).lok = ch.lok ∧ (g ch).lmsg = ch.lmsg) :
    (f c).map (fun ch => (ch.lok, ch.lmsg)) = slot s c := by
  rw [h]; unfold slot; cases s.chan c <;> simp [hg]
theorem slot_setChan {s : S} {c k : Nat} {ch ch' : Chan} (h : s.chan k = some ch) (h1 : ch'.lok = ch.lok) (h2 : ch'.lmsg = ch.lmsg) : slot (setChan s k ch') c = slot s c := by
  unfold slot setChan; dsimp only
  split
  · subst_vars; rw [h]; simp [h1, h2]
  · rfl

/-- what an operation of another coroutine on channel `k` does to a waiting select of `i`, of channel `c` -/
inductive Deal (c i k : Nat) (s t : S) : Prop
  | keep (h1 : (t.co i).retIdx = (s.co i).retIdx) (h2 : Kept c s t) (h3 : dv i t = dv i s)
  | other (hk : k ≠ c) (x : Nat) (hm : .case i x ∈ s.lists (.chanQ k)) (h0 : (s.co i).retIdx = -1) (h1 : (t.co i).retIdx = x) (h2 : Kept c s t)
  | got (hk : k = c) (x : Nat) (hm : .case i x ∈ s.lists (.chanQ k)) (h0 : (s.co i).retIdx = -1) (h1 : (t.co i).retIdx = x) (hn : t.nchan = s.nchan)
      (h2 : (∃ m e, (e = .take c i m ∨ e = .bcastTo c i m) ∧ dv i t = e :: dv i s ∧ ∀ p, slot t c = some p → p = (true, m)) ∨
        (dv i t = dv i s ∧ ∀ p, slot t c = some p → p.1 = false))

/-- the effect of a loop on the queue `q` of channel `k`, on `i` -/
inductive Loop (i k : Nat) (q : List Node) (s t : S) (es : List Ev) : Prop
  | keep (h1 : (t.co i).retIdx = (s.co i).retIdx) (h2 : slot t k = slot s k) (h3 : es.filter (delivTo i) = [])
  | got (x : Nat) (hm : .case i x ∈ q) (h0 : (s.co i).retIdx = -1) (h1 : (t.co i).retIdx = x)
      (h2 : (∃ m e, (e = .take k i m ∨ e = .bcastTo k i m) ∧ es.filter (delivTo i) = [e] ∧ ∀ p, slot t k = some p → p = (true, m)) ∨
        (es.filter (delivTo i) = [] ∧ ∀ p, slot t k = some p → p.1 = false))

/-- and if the queue may have cases of others -/
def Loop' (i : Nat) (q : List Node) (s t : S) (es : List Ev) : Prop :=
  ((t.co i).retIdx = (s.co i).retIdx ∧ es.filter (delivTo i) = []) ∨ ∃ x : Nat, .case i x ∈ q ∧ (s.co i).retIdx = -1 ∧ (t.co i).retIdx = x

theorem sendLoop_loop {i k : Nat} {m : Msg} {q : List Node} : ∀ {s : S}, .co i ∉ q →
    ∃ es, (sendLoop s k m q).1.log = es ++ s.log ∧ (∀ e ∈ es, isCallOf i e = false) ∧ (∀ c, c ≠ k → (sendLoop s k m q).1.chan c = s.chan c) ∧ (sendLoop s k m q).1.nchan = s.nchan ∧
      Loop' i q s (sendLoop s k m q).1 es ∧ ((∀ r x, .case r x ∈ q → r = i) → Loop i k q s (sendLoop s k m q).1 es) := by
  induction q with
  | nil => intro s _; exact ⟨[], rfl, by simp, fun _ _ => rfl, rfl, .inl ⟨rfl, rfl⟩, fun _ => .keep rfl rfl rfl⟩
  | cons n q ih =>
    intro s hc
    simp only [List.mem_cons, not_or] at hc
    cases n with
    | co r =>
      have hr : r ≠ i := by rintro rfl; exact hc.1 rfl
      have h1 : ((sendLoop s k m (.co r :: q)).1.co i).retIdx = (s.co i).retIdx := by simp [sendLoop, upd_co, Ne.symm hr]
      have h2 : [Ev.take k r m].filter (delivTo i) = [] := by simp [delivTo, hr]
      exact ⟨[.take k r m], rfl, by simp [isCallOf], fun _ _ => rfl, rfl, .inl ⟨h1, h2⟩, fun _ => .keep h1 rfl h2⟩
    | case r x =>
      simp only [sendLoop]
      split
      · obtain ⟨es, h1, h2, h3, h4, h5, h6⟩ := ih (s := s) hc.2
        refine ⟨es, h1, h2, h3, h4, ?_, ?_⟩
        · rcases h5 with h | ⟨x, hx, h⟩
          · exact .inl h
          · exact .inr ⟨x, List.mem_cons_of_mem _ hx, h⟩
        · intro ho
          cases h6 (fun r x hx => ho r x (List.mem_cons_of_mem _ hx)) with
          | keep a b c => exact .keep a b c
          | got x a b c d => exact .got x (List.mem_cons_of_mem _ a) b c d
      · rename_i hri
        have hri : (s.co r).retIdx = -1 := by simpa using hri
        refine ⟨[.take k r m], rfl, by simp [isCallOf], fun c hck => by simp [hck], rfl, ?_, ?_⟩
        · by_cases hr : r = i
          · subst hr
            exact .inr ⟨x, List.mem_cons_self, hri, by simp [upd_co]⟩
          · exact .inl ⟨by simp [upd_co, Ne.symm hr], by simp [delivTo, hr]⟩
        · intro ho
          have := ho r x List.mem_cons_self
          subst this
          refine .got x List.mem_cons_self hri (by simp [upd_co]) (.inl ⟨m, _, .inl rfl, by simp [delivTo], ?_⟩)
          intro p hp
          simp [slot, Option.map_map] at hp
          exact hp.2.symm

theorem bcastLoop_loop {i k : Nat} {m : Msg} {q : List Node} : ∀ {s : S}, .co i ∉ q →
    ∃ es, (bcastLoop s k m q).1.log = es ++ s.log ∧ (∀ e ∈ es, isCallOf i e = false) ∧ (∀ c, c ≠ k → (bcastLoop s k m q).1.chan c = s.chan c) ∧ (bcastLoop s k m q).1.nchan = s.nchan ∧
      Loop' i q s (bcastLoop s k m q).1 es ∧ ((∀ r x, .case r x ∈ q → r = i) → Loop i k q s (bcastLoop s k m q).1 es) := by
  induction q with
  | nil => intro s _; exact ⟨[], rfl, by simp, fun _ _ => rfl, rfl, .inl ⟨rfl, rfl⟩, fun _ => .keep rfl rfl rfl⟩
  | cons n q ih =>
    intro s hc
    simp only [List.mem_cons, not_or] at hc
    cases n with
    | co r =>
      have hr : r ≠ i := by rintro rfl; exact hc.1 rfl
      simp only [bcastLoop]
      obtain ⟨es, h1, h2, h3, h4, h5, h6⟩ := ih (s := schedResume (note (upd (setList s (.chanQ k) q) r (fun k => { k with rdat := m })) (.bcastTo k r m)) r) hc.2
      have hco : ((schedResume (note (upd (setList s (.chanQ k) q) r (fun k => { k with rdat := m })) (.bcastTo k r m)) r).co i).retIdx = (s.co i).retIdx := by simp [upd_co, Ne.symm hr]
      refine ⟨es ++ [.bcastTo k r m], by rw [h1]; simp, ?_, by simpa using h3, by simpa using h4, ?_, ?_⟩
      · intro e he
        rcases List.mem_append.mp he with he | he
        · exact h2 e he
        · simp at he; subst he; rfl
      · rw [Loop', hco] at h5
        rcases h5 with ⟨h, h'⟩ | ⟨x, hx, h⟩
        · exact .inl ⟨h, by simp [h', delivTo, hr]⟩
        · exact .inr ⟨x, List.mem_cons_of_mem _ hx, h⟩
      · intro ho
        have hd : (es ++ [Ev.bcastTo k r m]).filter (delivTo i) = es.filter (delivTo i) := by simp [delivTo, hr]
        cases h6 (fun r x hx => ho r x (List.mem_cons_of_mem _ hx)) with
        | keep a b c => exact .keep (a.trans hco) b (hd.trans c)
        | got x a b c d => exact .got x (List.mem_cons_of_mem _ a) (hco.symm.trans b) c (by rw [hd]; exact d)
    | case r x =>
      simp only [bcastLoop]
      split
      · obtain ⟨es, h1, h2, h3, h4, h5, h6⟩ := ih (s := s) hc.2
        refine ⟨es, h1, h2, h3, h4, ?_, ?_⟩
        · rcases h5 with h | ⟨x, hx, h⟩
          · exact .inl h
          · exact .inr ⟨x, List.mem_cons_of_mem _ hx, h⟩
        · intro ho
          cases h6 (fun r x hx => ho r x (List.mem_cons_of_mem _ hx)) with
          | keep a b c => exact .keep a b c
          | got x a b c d => exact .got x (List.mem_cons_of_mem _ a) b c d
      · rename_i hri
        have hri : (s.co r).retIdx = -1 := by simpa using hri
        generalize ht : schedResume (note { upd (setList s (.chanQ k) q) r (fun k => { k with retIdx := x }) with chan := fun j => if j = k then (s.chan k).map (fun ch => { ch with lok := true, lmsg := m }) else s.chan j } (.bcastTo k r m)) r = t
        have hlog : t.log = .bcastTo k r m :: s.log := by rw [← ht]; simp
        have hch : ∀ c, c ≠ k → t.chan c = s.chan c := by intro c hc; rw [← ht]; simp [hc]
        have hsl : ∀ p, slot t k = some p → p = (true, m) := by
          intro p hp
          rw [← ht] at hp
          simp [slot, Option.map_map] at hp
          exact hp.2.symm
        have hnc : t.nchan = s.nchan := by rw [← ht]; simp
        obtain ⟨es, h1, h2, h3, h4, h5, h6⟩ := ih (s := t) hc.2
        refine ⟨es ++ [.bcastTo k r m], by rw [h1, hlog]; simp, ?_, fun c hc => (h3 c hc).trans (hch c hc), h4.trans hnc, ?_, ?_⟩
        · intro e he
          rcases List.mem_append.mp he with he | he
          · exact h2 e he
          · simp at he; subst he; rfl
        · by_cases hr : r = i
          · subst hr
            have hti : (t.co r).retIdx = x := by rw [← ht]; simp [upd_co]
            rcases h5 with ⟨h, _⟩ | ⟨x', _, h, _⟩
            · exact .inr ⟨x, List.mem_cons_self, hri, h.trans hti⟩
            · rw [hti] at h; omega
          · have hti : (t.co i).retIdx = (s.co i).retIdx := by rw [← ht]; simp [upd_co, Ne.symm hr]
            rcases h5 with ⟨h, h'⟩ | ⟨x', hx, h, h''⟩
            · exact .inl ⟨h.trans hti, by simp [h', delivTo, hr]⟩
            · exact .inr ⟨x', List.mem_cons_of_mem _ hx, hti.symm.trans h, h''⟩
        · intro ho
          have := ho r x List.mem_cons_self
          subst this
          have hti : (t.co r).retIdx = x := by rw [← ht]; simp [upd_co]
          cases h6 (fun r x hx => ho r x (List.mem_cons_of_mem _ hx)) with
          | keep a b c =>
            refine .got x List.mem_cons_self hri (a.trans hti) (.inl ⟨m, _, .inr rfl, by simp [c, delivTo], ?_⟩)
            rw [b]; exact hsl
          | got x' a b c d => rw [hti] at b; omega

theorem closeLoop_loop {i k : Nat} {q : List Node} : ∀ {s : S},
    (closeLoop s k q).log = s.log ∧ (∀ c, c ≠ k → (closeLoop s k q).chan c = s.chan c) ∧ (closeLoop s k q).nchan = s.nchan ∧
      Loop' i q s (closeLoop s k q) [] ∧ ((∀ r x, .case r x ∈ q → r = i) → Loop i k q s (closeLoop s k q) []) := by
  induction q with
  | nil => intro s; exact ⟨rfl, fun _ _ => rfl, rfl, .inl ⟨rfl, rfl⟩, fun _ => .keep rfl rfl rfl⟩
  | cons n q ih =>
    intro s
    cases n with
    | co r =>
      simp only [closeLoop]
      generalize ht : schedResume (upd (setList s (.chanQ k) q) r (fun k => { k with cclosed := true })) r = t
      have hco : (t.co i).retIdx = (s.co i).retIdx := by rw [← ht]; simp [upd_co]; split <;> simp_all
      have hl : t.log = s.log := by rw [← ht]; simp
      have hch : t.chan = s.chan := by rw [← ht]; simp
      have hnc : t.nchan = s.nchan := by rw [← ht]; simp
      obtain ⟨h1, h3, h4, h5, h6⟩ := ih (s := t)
      refine ⟨h1.trans hl, fun c hc => by rw [h3 c hc, hch], h4.trans hnc, ?_, ?_⟩
      · rw [Loop', hco] at h5
        rcases h5 with ⟨h, h'⟩ | ⟨x, hx, h⟩
        · exact .inl ⟨h, rfl⟩
        · exact .inr ⟨x, List.mem_cons_of_mem _ hx, h⟩
      · intro ho
        cases h6 (fun r x hx => ho r x (List.mem_cons_of_mem _ hx)) with
        | keep a b c => exact .keep (a.trans hco) (b.trans (slot_chan hch)) c
        | got x a b c d => exact .got x (List.mem_cons_of_mem _ a) (hco.symm.trans b) c d
    | case r x =>
      simp only [closeLoop]
      split
      · obtain ⟨h1, h3, h4, h5, h6⟩ := ih (s := s)
        refine ⟨h1, h3, h4, ?_, ?_⟩
        · rcases h5 with h | ⟨x, hx, h⟩
          · exact .inl h
          · exact .inr ⟨x, List.mem_cons_of_mem _ hx, h⟩
        · intro ho
          cases h6 (fun r x hx => ho r x (List.mem_cons_of_mem _ hx)) with
          | keep a b c => exact .keep a b c
          | got x a b c d => exact .got x (List.mem_cons_of_mem _ a) b c d
      · rename_i hri
        have hri : (s.co r).retIdx = -1 := by simpa using hri
        generalize ht : schedResume { upd (setList s (.chanQ k) q) r (fun k => { k with retIdx := x, cclosed := true }) with chan := fun j => if j = k then (s.chan k).map (fun ch => { ch with lok := false }) else s.chan j } r = t
        have hl : t.log = s.log := by rw [← ht]; simp
        have hch : ∀ c, c ≠ k → t.chan c = s.chan c := by intro c hc; rw [← ht]; simp [hc]
        have hsl : ∀ p, slot t k = some p → p.1 = false := by
          intro p hp
          rw [← ht] at hp
          simp [slot, Option.map_map] at hp
          obtain ⟨_, _, hp⟩ := hp; rw [← hp]
        have hnc : t.nchan = s.nchan := by rw [← ht]; simp
        obtain ⟨h1, h3, h4, h5, h6⟩ := ih (s := t)
        refine ⟨h1.trans hl, fun c hc => (h3 c hc).trans (hch c hc), h4.trans hnc, ?_, ?_⟩
        · by_cases hr : r = i
          · subst hr
            have hti : (t.co r).retIdx = x := by rw [← ht]; simp [upd_co]
            rcases h5 with ⟨h, _⟩ | ⟨x', _, h, _⟩
            · exact .inr ⟨x, List.mem_cons_self, hri, h.trans hti⟩
            · rw [hti] at h; omega
          · have hti : (t.co i).retIdx = (s.co i).retIdx := by rw [← ht]; simp [upd_co, Ne.symm hr]
            rcases h5 with ⟨h, h'⟩ | ⟨x', hx, h, h''⟩
            · exact .inl ⟨h.trans hti, rfl⟩
            · exact .inr ⟨x', List.mem_cons_of_mem _ hx, hti.symm.trans h, h''⟩
        · intro ho
          have := ho r x List.mem_cons_self
          subst this
          have hti : (t.co r).retIdx = x := by rw [← ht]; simp [upd_co]
          cases h6 (fun r x hx => ho r x (List.mem_cons_of_mem _ hx)) with
          | keep a b c =>
            refine .got x List.mem_cons_self hri (a.trans hti) (.inr ⟨rfl, ?_⟩)
            rw [b]; exact hsl
          | got x' a b c d => rw [hti] at b; omega

/-- from a loop to the whole operation -/
theorem Deal.loop {c i k : Nat} {s u t : S} {es fs : List Ev} (hlog : u.log = es ++ s.log) (hes : ∀ e ∈ es, isCallOf i e = false) (hch : ∀ c, c ≠ k → u.chan c = s.chan c) (hn : u.nchan = s.nchan)
    (hl' : Loop' i (s.lists (.chanQ k)) s u es) (hl : (∀ r x, .case r x ∈ s.lists (.chanQ k) → r = i) → Loop i k (s.lists (.chanQ k)) s u es)
    (ho : k = c → ∀ r x, .case r x ∈ s.lists (.chanQ k) → r = i)
    (h1 : (t.co i).retIdx = (u.co i).retIdx) (h2 : slot t c = slot u c) (h3 : t.nchan = u.nchan) (h4 : t.log = fs ++ u.log) (h5 : ∀ e ∈ fs, isCallOf i e = false ∧ delivTo i e = false) : Deal c i k s t := by
  have hdt : dv i t = es.filter (delivTo i) ++ dv i s := by
    rw [dv_append h4 (fun e he => (h5 e he).1), dv_append hlog hes]
    rw [List.filter_eq_nil_iff.mpr (fun e he => by rw [(h5 e he).2]; simp)]; rfl
  by_cases hk : k = c
  · cases hl (ho hk) with
    | keep a b d => exact .keep (h1.trans a) (.of (h3.trans hn) (by rw [h2, ← hk]; exact b)) (by rw [hdt, d]; rfl)
    | got x a b d e =>
      refine .got hk x a b (h1.trans d) (h3.trans hn) ?_
      rw [h2]
      subst hk
      rcases e with ⟨m, e, he, h6, h7⟩ | ⟨h6, h7⟩
      · exact .inl ⟨m, e, he, by rw [hdt, h6]; rfl, h7⟩
      · exact .inr ⟨by rw [hdt, h6]; rfl, h7⟩
  · have hsl : slot t c = slot s c := by rw [h2]; unfold slot; rw [hch c (Ne.symm hk)]
    rcases hl' with ⟨a, b⟩ | ⟨x, a, b, d⟩
    · exact .keep (h1.trans a) (.of (h3.trans hn) hsl) (by rw [hdt, b]; rfl)
    · exact .other hk x a b (h1.trans d) (.of (h3.trans hn) hsl)

theorem Deal.pre {c i k : Nat} {s u t : S} (h1 : (u.co i).retIdx = (s.co i).retIdx) (h2 : slot u c = slot s c) (h3 : dv i u = dv i s) (h4 : ∀ n ∈ u.lists (.chanQ k), n ∈ s.lists (.chanQ k)) (h5 : u.nchan = s.nchan)
    (h : Deal c i k u t) : Deal c i k s t := by
  have kp : Kept c u t → Kept c s t := fun h => ⟨by rw [← h5]; exact h.1, fun hc => by rw [← h2]; exact h.2 (by rw [h5]; exact hc)⟩
  cases h with
  | keep a b d => exact .keep (a.trans h1) (kp b) (d.trans h3)
  | other a x b d e f => exact .other a x (h4 _ b) (h1.symm.trans d) e (kp f)
  | got a x b d e f g => exact .got a x (h4 _ b) (h1.symm.trans d) e (f.trans h5) (by rw [← h3]; exact g)

theorem sendLoop_chanKept {s : S} {k : Nat} {m : Msg} {q : List Node} (h : (sendLoop s k m q).2 = none) : (sendLoop s k m q).1.chan = s.chan := by
  induction q with
  | nil => rfl
  | cons n q ih =>
    cases n with
    | co r => simp [sendLoop] at h
    | case r x =>
      simp only [sendLoop] at h ⊢
      split at h
      · rename_i hr; rw [if_pos hr]; exact ih h
      · cases h

section
variable {i j : Nat} (hj : i ≠ j)
include hj

theorem chanSend_deal {c k : Nat} {s : S} (hq : .co i ∉ s.lists (.chanQ k)) (ho : k = c → ∀ r x, .case r x ∈ s.lists (.chanQ k) → r = i) (m : Msg) (dl : Int) : Deal c i k s (chanSend s j k m dl) := by
  unfold chanSend; dsimp only
  split
  · exact .keep rfl (.of rfl rfl) rfl
  rename_i ch hch
  split
  · exact .keep (by ri_tac hj) (.of rfl rfl) rfl
  split
  · exact .keep (by ri_tac hj) (.of rfl rfl) rfl
  have hdp : dv i (note s (.put k j m)) = dv i s := by
    rw [dv_append (es := [.put k j m]) rfl (by simp [isCallOf])]; rfl
  refine Deal.pre (u := note s (.put k j m)) rfl rfl hdp (fun _ h => h) rfl ?_
  generalize hu : note s (.put k j m) = u
  have hch' : u.chan k = some ch := by rw [← hu]; exact hch
  rw [show s.lists (.chanQ k) = u.lists (.chanQ k) by rw [← hu]; rfl] at hq ho
  clear hu
  have rest : ∀ {w : S}, w.chan k = some ch → (∀ {t : S} {fs : List Ev}, (t.co i).retIdx = (w.co i).retIdx → slot t c = slot w c → t.nchan = w.nchan → t.log = fs ++ w.log → (∀ e ∈ fs, isCallOf i e = false ∧ delivTo i e = false) → Deal c i k u t) →
      Deal c i k u (sendRest w j k m dl ch) := by
    intro w hw H
    unfold sendRest; dsimp only
    split
    · exact H (fs := []) (by ri_tac hj) (slot_setChan hw rfl rfl) rfl rfl (by simp)
    · refine H (fs := []) ?_ ?_ (by simp) (by simp) (by simp)
      · rw [copause_co, if_neg hj]; simp [upd_co, hj]
      · unfold slot
        rw [copause_chan]
        exact slot_setChan (s := w) hw rfl rfl
  by_cases hqr : ch.qrecv = true
  · rw [show sendTry u k m ch = sendLoop u k m (u.lists (.chanQ k)) from if_pos hqr]
    obtain ⟨es, h1, h2, h3, h4, h5, h6⟩ := sendLoop_loop (m := m) hq
    have H := fun {t : S} {fs : List Ev} => Deal.loop (t := t) (fs := fs) h1 h2 h3 h4 h5 h6 ho
    split
    · exact H (fs := []) (by ri_tac hj) rfl rfl rfl (by simp)
    · rename_i hn
      exact rest (by rw [sendLoop_chanKept hn]; exact hch') H
  · rw [show sendTry u k m ch = (u, none) from if_neg hqr]
    refine rest hch' ?_
    intro t fs h1 h2 h3 h4 h5
    refine .keep h1 (.of h3 h2) ?_
    rw [dv_append h4 (fun e he => (h5 e he).1), List.filter_eq_nil_iff.mpr (fun e he => by rw [(h5 e he).2]; simp)]; rfl

theorem chanBcast_deal {c k : Nat} {s : S} (hq : .co i ∉ s.lists (.chanQ k)) (ho : k = c → ∀ r x, .case r x ∈ s.lists (.chanQ k) → r = i) (m : Msg) : Deal c i k s (chanBcast s j k m) := by
  unfold chanBcast; dsimp only
  split
  · exact .keep rfl (.of rfl rfl) rfl
  split
  · exact .keep (by ri_tac hj) (.of rfl rfl) rfl
  unfold bcastTry
  split
  · obtain ⟨es, h1, h2, h3, h4, h5, h6⟩ := bcastLoop_loop (m := m) hq
    exact Deal.loop (fs := []) h1 h2 h3 h4 h5 h6 ho (by unfold yfsr; rw [coyield_co, if_neg hj]) rfl rfl rfl (by simp)
  · exact .keep (by ri_tac hj) (.of rfl rfl) rfl

theorem chanClose1_deal {c k : Nat} {s : S} {ch : Chan} (hch : s.chan k = some ch) (ho : k = c → ∀ r x, .case r x ∈ s.lists (.chanQ k) → r = i) (a : Aft) : Deal c i k s (chanClose1 s j k ch a) := by
  unfold chanClose1; dsimp only
  refine Deal.pre (u := setChan s k { ch with sclosed := true }) rfl (slot_setChan hch rfl rfl) rfl (fun _ h => h) rfl ?_
  split
  · exact .keep (by ri_tac hj) (.of rfl rfl) rfl
  · rw [show s.lists (.chanQ k) = (setChan s k { ch with sclosed := true }).lists (.chanQ k) from rfl] at ho
    generalize setChan s k { ch with sclosed := true } = u at *
    obtain ⟨h1, h3, h4, h5, h6⟩ := closeLoop_loop (i := i) (k := k) (q := u.lists (.chanQ k)) (s := u)
    refine Deal.loop (es := []) (fs := []) h1 (by simp) h3 h4 h5 h6 ho ?_ ?_ ?_ ?_ (by simp)
    · unfold yfsr; rw [coyield_co, if_neg hj]; rfl
    · show slot (closeEnd _ _) _ = _
      unfold closeEnd slot; dsimp only; split
      · rename_i e; rw [e]; cases (closeLoop u k (u.lists (.chanQ k))).chan k <;> rfl
      · rfl
    · rfl
    · rfl

theorem recvNow_slot {s t : S} {c r c' : Nat} {ch : Chan} {m : Msg} {o : Option Nat} (hch : s.chan c = some ch) (h : recvNow s c r ch = some (m, o, t)) : slot t c' = slot s c' := by
  unfold recvNow at h
  (repeat' split at h) <;> cases h <;> first | rfl | exact slot_setChan (s := s) hch rfl rfl | (unfold slot; rw [note_chan]; exact slot_setChan (s := setList s _ _) hch rfl rfl)

theorem recvNow_dv {s t : S} {c : Nat} {ch : Chan} {m : Msg} {o : Option Nat} (h : recvNow s c j ch = some (m, o, t)) : dv i t = dv i s := by
  have : t.log = s.log ∨ t.log = .take c j m :: s.log := by
    unfold recvNow at h
    (repeat' split at h) <;> cases h <;> first | exact .inl rfl | exact .inr rfl
  rcases this with h | h
  · exact dv_same h
  · rw [dv_append (es := [.take c j m]) h (by simp [isCallOf])]; simp [delivTo, Ne.symm hj]
end


/-! ## A select that found a channel -/

/-- the case a select found is one of its cases -/
def Found (k : Co) : Prop := ∀ x c v, k.pc = .selGot x c v → ∃ cs, selCs k.call = some cs ∧ cs[x]? = some c

theorem chanSelect_found (s : S) (i : Nat) (cs : List Nat) (dl : Int) (t : Bool) (hf : (chanSelect s i cs dl t).fault = false) {x c : Nat} {v : Int}
    (hp : ((chanSelect s i cs dl t).co i).pc = .selGot x c v) : cs[x]? = some c := by
  revert hf hp
  unfold chanSelect
  split
  · intro h; simp at h
  split
  · intro _ h; rw [pc_retv] at h; cases h
  split
  · rename_i k c' hsc
    have hk := (selScan_get hsc).2
    rw [Nat.sub_zero] at hk
    split
    · intro h; simp at h
    split
    · intro _ h; simp [setPc_co] at h; obtain ⟨rfl, rfl, rfl⟩ := h; exact hk
    split
    · intro _ h; simp [setPc_co] at h; obtain ⟨rfl, rfl, rfl⟩ := h; exact hk
    · intro h; simp at h
  split
  · intro _ h; rw [pc_retv] at h; cases h
  · intro _ h; rw [pc_copause] at h; cases h

theorem tauCo_found {s s' : S} {i : Nat} (h : tauCo s i = some s') {x c : Nat} {v : Int} (hp : (s'.co i).pc = .selGot x c v) : (s.co i).pc = .selGot x c v := by
  unfold tauCo at h
  split at h
  case h_1 => cases h
  case h_2 => cases h
  case h_3 => cases h
  case h_4 => cases h; unfold doRet at hp; split at hp <;> simp [setPc_co, upd_co] at hp
  case h_5 => (repeat' split at h) <;> cases h <;> simp [setPc_co, coyield_co] at hp
  case h_6 => cases h; simp [coyield_co] at hp
  case h_7 a hpc =>
    cases h
    cases a with
    | ret v => simp [doAft, retv_co] at hp
    | condEnq =>
      simp only [doAft] at hp; split at hp
      · simp [cvEnq, pc_copause] at hp
      · exact hp
    | genRel =>
      simp only [doAft] at hp; split at hp
      · simp [setPc_co] at hp
      · exact hp
    | exitTail => simp only [doAft] at hp; split at hp <;> simp [setPc_co, yfsr, coyield_co] at hp
    | fin a => simp [doAft, doFin, setPc_co] at hp
  case h_8 => cases h; simp [retv_co] at hp
  case h_9 b _ => cases h; cases b <;> simp only [afterBlk] at hp <;> (repeat' split at hp) <;> simp [retv_co, setPc_co] at hp
  case h_10 =>
    (split at h) <;> cases h
    · unfold doCancel at hp; dsimp only at hp; (repeat' split at hp) <;> simp [retv_co, setPc_co, pc_copause] at hp
    · exact hp
  case h_11 =>
    (split at h) <;> cases h
    · unfold doRelock at hp; (repeat' split at hp) <;> simp [retv_co, setPc_co, finishLock, pc_copause] at hp
    · exact hp
  case h_12 => cases h; simp [retv_co] at hp
  case h_13 a hpc =>
    cases h
    have := (doExit_pc hpc).1
    rw [hp] at this; cases this

end Neco.Rt
