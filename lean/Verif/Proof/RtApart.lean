import Verif.Spec.Apart
import Verif.Proof.RtKeep
import Verif.Proof.RtCase2
/-!
# Steps leave alone what they do not concern
-/
namespace Neco.Rt
open Neco.Err

section lists
variable {L : LName}

theorem bcastLoop_ap {s : S} {c : Nat} {m : Msg} {q : List Node} (h : ∀ n ∈ q, .co n.owner ∉ s.lists L) (hk : L ≠ .resumers) (hc : L ≠ .chanQ c) :
    (bcastLoop s c m q).1.lists L = s.lists L := by
  induction q generalizing s with
  | nil => simp [bcastLoop, setList_lists, hc]
  | cons n q ih =>
    have hq : ∀ x ∈ q, Node.co x.owner ∉ s.lists L := fun x hx => h x (List.mem_cons_of_mem _ hx)
    have h0 := h n List.mem_cons_self
    cases n with
    | co r =>
      simp only [bcastLoop]
      have h1 : (schedResume (note (upd (setList s (.chanQ c) q) r (fun k => { k with rdat := m })) (.bcastTo c r m)) r).lists L = s.lists L := by
        rw [sched_keep] <;> try simp only [note_lists, upd_lists, setList_lists, if_neg hc]
        · exact h0
        · exact hk
      rw [ih (by rw [h1]; exact hq), h1]
    | case r x =>
      simp only [bcastLoop]
      split
      · exact ih hq
      · generalize ht : note _ (Ev.bcastTo c r m) = t
        have h2 : t.lists L = s.lists L := by rw [← ht]; simp [setList_lists, hc]
        have h1 : (schedResume t r).lists L = s.lists L := by rw [sched_keep (by rw [h2]; exact h0) hk, h2]
        dsimp only
        rw [ih (by rw [h1]; exact hq), h1]

theorem closeLoop_ap {s : S} {c : Nat} {q : List Node} (h : ∀ n ∈ q, .co n.owner ∉ s.lists L) (hk : L ≠ .resumers) (hc : L ≠ .chanQ c) :
    (closeLoop s c q).lists L = s.lists L := by
  induction q generalizing s with
  | nil => simp [closeLoop, setList_lists, hc]
  | cons n q ih =>
    have hq : ∀ x ∈ q, Node.co x.owner ∉ s.lists L := fun x hx => h x (List.mem_cons_of_mem _ hx)
    have h0 := h n List.mem_cons_self
    cases n with
    | co r =>
      simp only [closeLoop]
      have h1 : (schedResume (upd (setList s (.chanQ c) q) r (fun k => { k with cclosed := true })) r).lists L = s.lists L := by
        rw [sched_keep] <;> try simp only [upd_lists, setList_lists, if_neg hc]
        · exact h0
        · exact hk
      rw [ih (by rw [h1]; exact hq), h1]
    | case r x =>
      simp only [closeLoop]
      split
      · exact ih hq
      · have h1 : ∀ t : S, t.lists L = s.lists L → (schedResume t r).lists L = s.lists L := fun t h2 => by rw [sched_keep (by rw [h2]; exact h0) hk, h2]
        have h3 := h1 { upd (setList s (.chanQ c) q) r (fun k => { k with retIdx := x, cclosed := true }) with
          chan := fun k => if k = c then (s.chan c).map (fun ch => { ch with lok := false }) else s.chan k } (by simp [setList_lists, hc])
        exact (ih (by rw [h3]; exact hq)).trans h3

theorem sendLoop_ap {s : S} {c : Nat} {m : Msg} {q : List Node} (hc : L ≠ .chanQ c) : (sendLoop s c m q).1.lists L = s.lists L := by
  induction q generalizing s with
  | nil => simp [sendLoop, setList_lists, hc]
  | cons n q ih =>
    cases n with
    | co r => simp [sendLoop, setList_lists, hc]
    | case r x => simp only [sendLoop]; split
                  · exact ih
                  · simp [setList_lists, hc]

theorem recvNow_ap {s t : S} {c r : Nat} {ch : Chan} {m : Msg} {o : Option Nat} (hc : L ≠ .chanQ c) (h : recvNow s c r ch = some (m, o, t)) : t.lists L = s.lists L := by
  unfold recvNow at h
  (repeat' split at h) <;> cases h <;> simp [setList_lists, hc]

theorem selPush_ap {s : S} {i k : Nat} {cs : List Nat} (hc : ∀ c ∈ cs, L ≠ .chanQ c) (hi : ∀ x, Node.case i x ∉ s.lists L) : (selPush s i k cs).lists L = s.lists L := by
  induction cs generalizing s k with
  | nil => rfl
  | cons c cs ih =>
    simp only [selPush]
    have h1 : (push s (.chanQ c) (.case i k)).lists L = s.lists L := push_keep (hi k) (hc c List.mem_cons_self)
    exact (ih (s := { push s (.chanQ c) (.case i k) with chan := _ }) (fun x hx => hc x (List.mem_cons_of_mem _ hx)) (by intro x; rw [show S.lists { push s (.chanQ c) (.case i k) with chan := _ } L = _ from h1]; exact hi x)).trans h1

theorem chanSend_ap {s : S} {i c : Nat} {m : Msg} {dl : Int} (hc : L ≠ .chanQ c) (hi : Node.co i ∉ s.lists L) : (chanSend s i c m dl).lists L = s.lists L := by
  have h1 : ∀ ch, (sendTry (note s (.put c i m)) c m ch).1.lists L = s.lists L := by
    intro ch; unfold sendTry; split
    · exact sendLoop_ap (s := note s _) hc
    · rfl
  unfold chanSend
  split
  · rfl
  split
  · rfl
  split
  · rfl
  dsimp only
  split
  · rw [scoResume_lists, retv_lists, h1]
  · unfold sendRest; dsimp only
    split
    · simp [h1]
    · rw [copause_lists]
      exact (push_keep (K := .chanQ c) (by rw [h1]; exact hi) hc).trans (h1 _)

theorem chanBcast_ap {s : S} {i c : Nat} {m : Msg} (hc : L ≠ .chanQ c) (hk : L ≠ .resumers) (h : ∀ n ∈ s.lists (.chanQ c), .co n.owner ∉ s.lists L) : (chanBcast s i c m).lists L = s.lists L := by
  unfold chanBcast bcastTry; dsimp only
  (repeat' split) <;> simp only [retv_lists, yfsr_lists]
  exact bcastLoop_ap h hk hc

theorem chanRecv_ap {s : S} {i c : Nat} {b : Bool} {dl : Int} (hc : L ≠ .chanQ c) (hi : Node.co i ∉ s.lists L) : (chanRecv s i c b dl).lists L = s.lists L := by
  unfold chanRecv
  split
  · rfl
  split
  · rfl
  split
  · rfl
  split
  · rename_i hr; simp [recvNow_ap hc hr]
  split
  · rfl
  · dsimp only; rw [copause_lists]; exact push_keep (K := .chanQ c) hi hc

theorem chanClose1_ap {s : S} {i c : Nat} {ch : Chan} {a : Aft} (hc : L ≠ .chanQ c) (hk : L ≠ .resumers) (h : ∀ n ∈ s.lists (.chanQ c), .co n.owner ∉ s.lists L) :
    (chanClose1 s i c ch a).lists L = s.lists L := by
  unfold chanClose1; dsimp only
  split
  · rfl
  · rw [yfsr_lists]; exact closeLoop_ap (s := setChan s c _) h hk hc

theorem chanSelect_ap {s : S} {i : Nat} {cs : List Nat} {dl : Int} {b : Bool} (hc : ∀ c ∈ cs, L ≠ .chanQ c) (hi : ∀ x, Node.case i x ∉ s.lists L) :
    (chanSelect s i cs dl b).lists L = s.lists L := by
  unfold chanSelect
  split
  · rfl
  split
  · rfl
  split
  · rename_i k c hsc
    have hm : c ∈ cs := List.mem_of_getElem? (selScan_get hsc).2
    split
    · rfl
    split
    · rfl
    split
    · rename_i hr; simp [recvNow_ap (hc c hm) hr]
    · rfl
  split
  · rfl
  · dsimp only; rw [copause_lists]; exact selPush_ap (s := upd s i _) hc hi

theorem finishLock_ap {s : S} {i m : Nat} {rd : Bool} {dl : Int} {b : Blk} (hm : L ≠ .muQ m) (h : Node.co i ∉ s.lists L) :
    (finishLock s i m rd dl b).lists L = s.lists L := by
  unfold finishLock; dsimp only; rw [copause_lists]
  exact push_keep (K := .muQ m) (s := upd s i _) h hm

theorem cvEnq_ap {s : S} {i v : Nat} {dl : Int} (hv : L ≠ .cvQ v) (h : Node.co i ∉ s.lists L) : (cvEnq s i v dl).lists L = s.lists L := by
  unfold cvEnq; dsimp only; rw [copause_lists]; exact push_keep (K := .cvQ v) h hv

theorem fastUnlock_ap {s : S} {m : Nat} (hm : L ≠ .muQ m) (hk : L ≠ .resumers) (h : ∀ n ∈ s.lists (.muQ m), .co n.owner ∉ s.lists L) : (fastUnlock s m).lists L = s.lists L := by
  unfold fastUnlock; dsimp only
  (repeat' split) <;> first | rfl | skip
  rw [handoff_keep (s := setMu s m _) h hk hm]; rfl
end lists

theorem Thing.q_inj {t u : Thing} (h : t.q = u.q) : t = u := by cases t <;> cases u <;> simp [Thing.q] at h ⊢ <;> exact h
@[simp] theorem Thing.q_res (t : Thing) : t.q ≠ .resumers := by cases t <;> simp [Thing.q]
@[simp] theorem Thing.q_io (t : Thing) : t.q ≠ .iolist := by cases t <;> simp [Thing.q]
@[simp] theorem Thing.q_sig (t : Thing) : t.q ≠ .sigQ := by cases t <;> simp [Thing.q]
@[simp] theorem Thing.q_join (t : Thing) (i : Nat) : t.q ≠ .joinQ i := by cases t <;> simp [Thing.q]
@[simp] theorem Thing.q_cancel (t : Thing) (i : Nat) : t.q ≠ .cancelQ i := by cases t <;> simp [Thing.q]
theorem Thing.q_chan {t : Thing} {c : Nat} (h : t ≠ .chan c) : t.q ≠ .chanQ c := fun e => h (Thing.q_inj (u := .chan c) e)
theorem Thing.q_mu {t : Thing} {c : Nat} (h : t ≠ .mu c) : t.q ≠ .muQ c := fun e => h (Thing.q_inj (u := .mu c) e)
theorem Thing.q_wg {t : Thing} {c : Nat} (h : t ≠ .wg c) : t.q ≠ .wgQ c := fun e => h (Thing.q_inj (u := .wg c) e)
theorem Thing.q_cv {t : Thing} {c : Nat} (h : t ≠ .cv c) : t.q ≠ .cvQ c := fun e => h (Thing.q_inj (u := .cv c) e)

/-- a call leaves the queues of the objects it does not name -/
theorem doCall_q {s : S} {i : Nat} {c : Call} {t : Thing} (hL : InvL s) (hf : Free s i) (ht : t ∉ c.things (s.co i).gen) :
    (doCall s i c).lists t.q = s.lists t.q := by
  have hi : Node.co i ∉ s.lists t.q := hf.not (by simp) (by simp)
  have hx : ∀ x, Node.case i x ∉ s.lists t.q := fun x hm => by
    rcases hf _ _ hm rfl with e | e
    · exact absurd e t.q_res
    · exact absurd e t.q_io
  have aw : ∀ {K : LName}, t.q ≠ K → ∀ n ∈ s.lists K, .co n.owner ∉ s.lists t.q := fun h => hL.away h (by simp) (by simp)
  cases c <;> simp only [Call.things, List.mem_cons, List.not_mem_nil, or_false, not_or] at ht
  all_goals simp only [doCall]
  all_goals first | (simp; done) | skip
  case join id dl =>
    unfold doJoin; dsimp only
    (repeat' split) <;> first | rfl | skip
    rw [copause_lists]; exact push_keep (s := dlClear s i) hi (by simp)
  case chRetain c => split <;> rfl
  case send c m dl => exact chanSend_ap (Thing.q_chan ht) hi
  case bcast c m => exact chanBcast_ap (Thing.q_chan ht) (by simp) (aw (Thing.q_chan ht))
  case recv c dl => exact chanRecv_ap (Thing.q_chan ht) hi
  case tryrecv c => exact chanRecv_ap (Thing.q_chan ht) hi
  case close c =>
    unfold chanClose
    split
    · rfl
    split
    · rfl
    · exact chanClose1_ap (Thing.q_chan ht) (by simp) (aw (Thing.q_chan ht))
  case select cs dl => exact chanSelect_ap (fun c hc => Thing.q_chan (fun e => ht (by rw [e]; exact List.mem_map_of_mem hc))) hx
  case tryselect cs => exact chanSelect_ap (fun c hc => Thing.q_chan (fun e => ht (by rw [e]; exact List.mem_map_of_mem hc))) hx
  case genYield m dl =>
    unfold doGenYield
    split
    · rfl
    · rename_i g hg
      exact chanSend_ap (Thing.q_chan (fun e => ht (by rw [e, hg]; simp))) hi
  case lock m dl =>
    unfold muLock; dsimp only
    (repeat' split) <;> first | rfl | skip
    exact finishLock_ap (s := dlClear s i) (Thing.q_mu ht) hi
  case rdlock m dl =>
    unfold muRdlock; dsimp only
    (repeat' split) <;> first | rfl | skip
    exact finishLock_ap (s := dlClear s i) (Thing.q_mu ht) hi
  case unlock m =>
    unfold muUnlock; split <;> simp only [yfsr_lists, coyield_lists] <;>
      exact fastUnlock_ap (s := note s _) (Thing.q_mu ht) (by simp) (aw (Thing.q_mu ht))
  case wgDone w =>
    have hw := Thing.q_wg ht
    unfold wgDone; dsimp only
    (repeat' split)
    · rfl
    · rfl
    all_goals first | rfl | skip
    · simp [setList_lists, hw]
    · rename_i q _ _
      rw [yfsr_lists, schedAll_q]
      · simp [setList_lists, hw]
      · intro n hn; simp only [setList_lists, setWg_lists]; rw [if_neg hw]
        exact aw hw n (by simpa using hn)
      · simp
  case wgWait w dl =>
    unfold wgWait; dsimp only
    (repeat' split) <;> first | rfl | skip
    rw [copause_lists]; exact push_keep (K := .wgQ w) (s := dlClear s i) hi (Thing.q_wg ht)
  case cvSignal v =>
    unfold cvSignal
    split
    · rfl
    · simp [setList_lists, Thing.q_cv ht]
  case cvBcast v =>
    have hv := Thing.q_cv ht
    unfold cvBcast
    rw [yfsr_lists, schedAll_q]
    · simp [setList_lists, hv]
    · intro n hn; simp only [setList_lists]; rw [if_neg hv]
      exact aw hv n hn
    · simp
  case cvWait v m dl =>
    unfold cvWait
    have h1 : ∀ e, (fastUnlock (note s e) m).lists t.q = s.lists t.q := fun e =>
      fastUnlock_ap (s := note s e) (Thing.q_mu ht.2) (by simp) (aw (Thing.q_mu ht.2))
    (repeat' split)
    · rfl
    · rw [yfsr_lists]; exact h1 _
    · rw [cvEnq_ap (Thing.q_cv ht.1) (by rw [h1]; exact hi)]; exact h1 _
  case sigWait dl =>
    unfold doSigWait; dsimp only
    (repeat' split) <;> first | rfl | skip
    rw [copause_lists]; exact push_keep (K := .sigQ) (s := upd s i _) hi (by simp)

/-- where a node waits at an object, its owner is in a call that names the object -/
theorem place_things {k : Co} {n : Node} {t : Thing} (h : place k n t.q) : t ∈ k.call.things k.gen := by
  cases n <;> cases t <;> simp only [Thing.q, place] at h
  · rcases h with ⟨_, h⟩ | ⟨_, dl, h⟩
    · unfold sendOf at h
      split at h
      · rename_i e; cases h; simp [e, Call.things]
      · rename_i e; simp [e, Call.things, h]
      · cases h
    · simp [h, Call.things]
  · rcases h with ⟨_, ⟨dl, h⟩, _⟩ | ⟨_, ⟨dl, h⟩, _⟩ | ⟨_, ⟨v, dl, h⟩, _⟩ <;> simp [h, Call.things]
  · obtain ⟨_, dl, h⟩ := h; simp [h, Call.things]
  · obtain ⟨_, m, dl, h⟩ := h; simp [h, Call.things]
  · obtain ⟨_, cs, dl, h, hx⟩ := h; simp [h, Call.things]; exact List.mem_of_getElem? hx

theorem not_queued {s : S} (hL : InvL s) {i : Nat} {t : Thing} (ht : t ∉ (s.co i).call.things (s.co i).gen) {n : Node} (ho : n.owner = i) : n ∉ s.lists t.q := by
  intro hm
  have := hL.pl _ _ hm
  rw [ho] at this
  exact ht (place_things this)

theorem tauCo_q {s s' : S} {i : Nat} {t : Thing} (hL : InvL s) (h : tauCo s i = some s') (ht : t ∉ (s.co i).call.things (s.co i).gen)
    (hg : ∀ a g, (s.co i).pc = .exitRun a → (s.co i).gen = some g → t ≠ .chan g) : s'.lists t.q = s.lists t.q := by
  have hi : Node.co i ∉ s.lists t.q := not_queued hL ht rfl
  have hx : ∀ x, Node.case i x ∉ s.lists t.q := fun x => not_queued hL ht rfl
  unfold tauCo at h
  split at h
  case h_1 => cases h
  case h_2 => cases h
  case h_3 => cases h
  case h_4 => cases h; simp
  case h_5 => (repeat' split at h) <;> cases h <;> rfl
  case h_6 => cases h; rfl
  case h_7 a hp =>
    cases h
    cases a with
    | ret v => rfl
    | condEnq => simp only [doAft]; split
                 · rename_i e; simp only [e, Call.things, List.mem_cons, not_or] at ht; exact cvEnq_ap (Thing.q_cv ht.1) hi
                 · rfl
    | genRel a b => simp only [doAft]; split <;> simp
    | exitTail => simp only [doAft]; split <;> simp
    | fin a => simp only [doAft, doFin]; exact rm_keep hi
  case h_8 => cases h; rfl
  case h_9 b _ =>
    cases h
    have e1 : (preBlk (unpause s i) i b).lists = s.lists := by simp
    have hi1 : Node.co i ∉ (preBlk (unpause s i) i b).lists t.q := by rw [e1]; exact hi
    have hx1 : ∀ x, Node.case i x ∉ (preBlk (unpause s i) i b).lists t.q := by rw [e1]; exact hx
    rw [← e1]
    generalize preBlk (unpause s i) i b = u at *
    cases b <;> simp only [afterBlk] <;> (repeat' split) <;> simp only [retv_lists, dlClear_lists, setPc_lists, upd_lists, note_lists] <;> first
      | rfl
      | exact rm_keep hi1
      | skip
    all_goals show ((u.lists _).filter _) = _
    all_goals rw [List.filter_eq_self]
    all_goals
      intro n hn
      cases n with
      | co j => rfl
      | case j x => simp; rintro rfl; exact hx1 x hn
  case h_10 =>
    (split at h) <;> cases h
    · unfold doCancel; dsimp only
      (repeat' split) <;> first | rfl | skip
      rw [copause_lists]; exact push_keep (s := dlClear s i) hi (by simp)
    · rfl
  case h_11 =>
    (split at h) <;> cases h
    · rename_i e; simp only [e, Call.things, List.mem_cons, List.not_mem_nil, or_false, not_or] at ht
      unfold doRelock; dsimp only
      (repeat' split) <;> first | rfl | skip
      exact finishLock_ap (s := dlClear s i) (Thing.q_mu ht.2) hi
    · rfl
  case h_12 => cases h; rfl
  case h_13 a hp =>
    cases h
    have hn : (exitNotify s i a).lists t.q = s.lists t.q := by
      have go : ∀ (u : S) (K : LName), InvL u → t.q ≠ K → (schedAll (setList u K []) K (u.lists K)).lists t.q = u.lists t.q := by
        intro u K hu hk
        rw [schedAll_q]
        · rw [setList_lists, if_neg hk]
        · intro n hn; rw [setList_lists, if_neg hk]; exact hu.away hk (by simp) (by simp) n hn
        · simp
      unfold exitNotify; dsimp only
      rw [show s.lists (.cancelQ i) = ({ s with all := s.all.filter (fun j => decide (j ≠ i)), allCount := s.allCount - 1, log := .exit i :: s.log } : S).lists (.cancelQ i) from rfl]
      have hL0 : InvL { s with all := s.all.filter (fun j => decide (j ≠ i)), allCount := s.allCount - 1, log := .exit i :: s.log } := hL.congr rfl (fun _ => rfl) (Nat.le_refl _) rfl
      have e0 : ({ s with all := s.all.filter (fun j => decide (j ≠ i)), allCount := s.allCount - 1, log := .exit i :: s.log } : S).lists t.q = s.lists t.q := rfl
      have g0 : (({ s with all := s.all.filter (fun j => decide (j ≠ i)), allCount := s.allCount - 1, log := .exit i :: s.log } : S).co i).gen = (s.co i).gen := rfl
      generalize ({ s with all := s.all.filter (fun j => decide (j ≠ i)), allCount := s.allCount - 1, log := .exit i :: s.log } : S) = s0 at *
      have hL1 : InvL (schedAll (setList s0 (.cancelQ i) []) (.cancelQ i) (s0.lists (.cancelQ i))) :=
        InvL.schedAll (hL0.setList (nil_sub _ _)) _ _ (fun n hn => hL0.ow _ n hn)
      have e1 := (go s0 (.cancelQ i) hL0 (by simp)).trans e0
      have g1 : ((schedAll (setList s0 (.cancelQ i) []) (.cancelQ i) (s0.lists (.cancelQ i))).co i).gen = (s.co i).gen := by rw [← g0]; simp
      generalize schedAll (setList s0 (.cancelQ i) []) (.cancelQ i) (s0.lists (.cancelQ i)) = s1 at *
      have hL2 : InvL (schedAll (setList s1 (.joinQ i) []) (.joinQ i) (s1.lists (.joinQ i))) :=
        InvL.schedAll (hL1.setList (nil_sub _ _)) _ _ (fun n hn => hL1.ow _ n hn)
      have e2 := (go s1 (.joinQ i) hL1 (by simp)).trans e1
      have g2 : ((schedAll (setList s1 (.joinQ i) []) (.joinQ i) (s1.lists (.joinQ i))).co i).gen = (s.co i).gen := by rw [← g1]; simp
      generalize schedAll (setList s1 (.joinQ i) []) (.joinQ i) (s1.lists (.joinQ i)) = s2 at *
      rw [← e2]
      (repeat' split) <;> first | rfl | skip
      rename_i g hgg _ _ _ _
      have hgc := Thing.q_chan (hg a g hp (by rw [← g2]; exact hgg))
      exact chanClose1_ap hgc (by simp) (hL2.away hgc (by simp) (by simp))
    unfold doExit
    (repeat' split) <;> first | rfl | exact hn

/-! ## The objects themselves -/

theorem sendLoop_chEq {s : S} {c k : Nat} {m : Msg} {q : List Node} (hc : k ≠ c) : (sendLoop s c m q).1.chan k = s.chan k := by
  induction q generalizing s with
  | nil => rfl
  | cons n q ih =>
    cases n with
    | co r => rfl
    | case r x => simp only [sendLoop]; split
                  · exact ih
                  · simp [hc]

theorem bcastLoop_chEq {s : S} {c k : Nat} {m : Msg} {q : List Node} (hc : k ≠ c) : (bcastLoop s c m q).1.chan k = s.chan k := by
  induction q generalizing s with
  | nil => rfl
  | cons n q ih =>
    cases n with
    | co r => simp only [bcastLoop]; rw [ih]; rfl
    | case r x =>
      simp only [bcastLoop]; split
      · exact ih
      · (try dsimp only); rw [ih]; simp [hc]

theorem closeLoop_chEq {s : S} {c k : Nat} {q : List Node} (hc : k ≠ c) : (closeLoop s c q).chan k = s.chan k := by
  induction q generalizing s with
  | nil => rfl
  | cons n q ih =>
    cases n with
    | co r => simp only [closeLoop]; rw [ih]; rfl
    | case r x =>
      simp only [closeLoop]; split
      · exact ih
      · (try dsimp only); rw [ih]; simp [hc]

theorem recvNow_chEq {s t : S} {c r k : Nat} {ch : Chan} {m : Msg} {o : Option Nat} (hc : k ≠ c) (h : recvNow s c r ch = some (m, o, t)) : t.chan k = s.chan k := by
  unfold recvNow at h
  (repeat' split at h) <;> cases h <;> simp [setChan, hc]

theorem selPush_chEq {s : S} {i k x : Nat} {cs : List Nat} (hc : k ∉ cs) : (selPush s i x cs).chan k = s.chan k := by
  induction cs generalizing s x with
  | nil => rfl
  | cons c cs ih =>
    simp only [List.mem_cons, not_or] at hc
    simp only [selPush]; rw [ih hc.2]; simp [hc.1]

theorem chanSend_chEq {s : S} {i c k : Nat} {m : Msg} {dl : Int} (hc : k ≠ c) : (chanSend s i c m dl).chan k = s.chan k := by
  have h1 : ∀ ch, (sendTry (note s (.put c i m)) c m ch).1.chan k = s.chan k := by
    intro ch; unfold sendTry; split
    · exact sendLoop_chEq (s := note s _) hc
    · rfl
  unfold chanSend
  split
  · rfl
  split
  · rfl
  split
  · rfl
  dsimp only
  split
  · rw [scoResume_chan, retv_chan, h1]
  · unfold sendRest; dsimp only
    split
    · simp [setChan, hc, h1]
    · simp [setChan, hc, h1]

theorem chanBcast_chEq {s : S} {i c k : Nat} {m : Msg} (hc : k ≠ c) : (chanBcast s i c m).chan k = s.chan k := by
  unfold chanBcast bcastTry; dsimp only
  (repeat' split) <;> simp only [retv_chan, yfsr_chan]
  exact bcastLoop_chEq hc

theorem chanRecv_chEq {s : S} {i c k : Nat} {b : Bool} {dl : Int} (hc : k ≠ c) : (chanRecv s i c b dl).chan k = s.chan k := by
  unfold chanRecv
  split
  · rfl
  split
  · rfl
  split
  · rfl
  split
  · rename_i hr; simp [recvNow_chEq hc hr]
  split
  · rfl
  · simp [setChan, hc]

theorem chanClose1_chEq {s : S} {i c k : Nat} {ch : Chan} {a : Aft} (hc : k ≠ c) : (chanClose1 s i c ch a).chan k = s.chan k := by
  unfold chanClose1; dsimp only
  split
  · simp [setChan, hc]
  · rw [yfsr_chan]; simp [closeEnd, hc, closeLoop_chEq hc, setChan]

theorem chanSelect_chEq {s : S} {i k : Nat} {cs : List Nat} {dl : Int} {b : Bool} (hc : k ∉ cs) : (chanSelect s i cs dl b).chan k = s.chan k := by
  unfold chanSelect
  split
  · rfl
  split
  · rfl
  split
  · rename_i x c hsc
    have hm : k ≠ c := fun e => hc (e ▸ List.mem_of_getElem? (selScan_get hsc).2)
    split
    · rfl
    split
    · rfl
    split
    · rename_i hr; simp [recvNow_chEq hm hr, hm]
    · rfl
  split
  · rfl
  · dsimp only; rw [copause_chan]; exact selPush_chEq (s := upd s i _) hc

theorem handoff_mu {s : S} {m k : Nat} {q : List Node} (hk : k ≠ m) : (handoff s m q).mu k = s.mu k := by
  induction q generalizing s with
  | nil => rfl
  | cons n q ih =>
    unfold handoff; dsimp only
    split
    · split
      · simp [setMu, hk]
      · split
        · rw [ih]; simp [setMu, hk]
        · simp [setMu, hk]
    · rfl

theorem fastUnlock_mu {s : S} {m k : Nat} (hk : k ≠ m) : (fastUnlock s m).mu k = s.mu k := by
  unfold fastUnlock; dsimp only
  (repeat' split) <;> simp [setMu, hk, handoff_mu hk]

/-- a call leaves the objects it does not name -/
theorem doCall_kept {s : S} {i : Nat} {c : Call} {t : Thing} (ht : t ∉ c.things (s.co i).gen) (hn : (c = .genStart ∨ ∃ n, c = .chMake n) → t ≠ .chan s.nchan) :
    t.kept s (doCall s i c) := by
  cases t with
  | chan k =>
    show (doCall s i c).chan k = s.chan k
    cases c <;> simp only [Call.things, List.mem_cons, List.not_mem_nil, or_false, not_or, Thing.chan.injEq] at ht
    all_goals simp only [doCall]
    all_goals first | (simp; done) | skip
    case genStart => have := hn (.inl rfl); simp [doGenStart, doStart]; intro e; exact absurd (by rw [e]) this
    case chMake n => have := hn (.inr ⟨_, rfl⟩); simp; intro e; exact absurd (by rw [e]) this
    case chRetain => split <;> simp [setChan, ht]
    case chRelease => unfold chanRelease; (repeat' split) <;> simp [setChan, ht]
    case send => exact chanSend_chEq ht
    case bcast => exact chanBcast_chEq ht
    case recv => exact chanRecv_chEq ht
    case tryrecv => exact chanRecv_chEq ht
    case close => unfold chanClose; (repeat' split) <;> first | rfl | exact chanClose1_chEq ht
    case select cs dl => exact chanSelect_chEq (fun h => ht (List.mem_map_of_mem h))
    case tryselect cs => exact chanSelect_chEq (fun h => ht (List.mem_map_of_mem h))
    case genYield =>
      unfold doGenYield; split
      · rfl
      · rename_i g hg; exact chanSend_chEq (fun e => ht (by rw [e, hg]; simp))
  | mu k =>
    show (doCall s i c).mu k = s.mu k
    cases c <;> simp only [Call.things, List.mem_cons, List.not_mem_nil, or_false, not_or, Thing.mu.injEq] at ht
    all_goals simp only [doCall]
    all_goals first | (simp; done) | skip
    case chRetain => split <;> rfl
    case lock => unfold muLock; dsimp only; (repeat' split) <;> simp [setMu, ht]
    case rdlock => unfold muRdlock; dsimp only; (repeat' split) <;> simp [setMu, ht]
    case trylock => unfold muTrylock; (repeat' split) <;> simp [setMu, ht]
    case tryrdlock => unfold muTryrdlock; (repeat' split) <;> simp [setMu, ht]
    case unlock => unfold muUnlock; split <;> simp [fastUnlock_mu ht]
    case cvWait => unfold cvWait; (repeat' split) <;> simp [fastUnlock_mu ht.2]
  | wg k =>
    show (doCall s i c).wg k = s.wg k
    cases c <;> simp only [Call.things, List.mem_cons, List.not_mem_nil, or_false, not_or, Thing.wg.injEq] at ht
    all_goals simp only [doCall]
    all_goals first | (simp; done) | skip
    case chRetain => split <;> rfl
    case wgAdd => unfold wgAdd; dsimp only; (repeat' split) <;> simp [setWg, ht]
    case wgDone => unfold wgDone; dsimp only; (repeat' split) <;> simp [setWg, ht]
  | cv k => trivial

theorem exitNotify_chEq {s : S} {i k : Nat} {a : Bool} (h : ∀ g, (s.co i).gen = some g → k ≠ g) : (exitNotify s i a).chan k = s.chan k := by
  unfold exitNotify; dsimp only
  split
  · simp
  rename_i g hg
  simp at hg
  (repeat' split)
  · simp
  · simp
  · rw [chanClose1_chEq (h g hg)]; simp

theorem tauCo_kept {s s' : S} {i : Nat} {t : Thing} (h : tauCo s i = some s') (hF : Found (s.co i)) (ht : t ∉ (s.co i).call.things (s.co i).gen)
    (hg : (s.co i).pc.ends = true → ∀ g, (s.co i).gen = some g → t ≠ .chan g) : t.kept s s' := by
  cases t with
  | chan k =>
    show s'.chan k = s.chan k
    unfold tauCo at h
    split at h
    case h_1 => cases h
    case h_2 => cases h
    case h_3 => cases h
    case h_4 => cases h; simp
    case h_5 => (repeat' split at h) <;> cases h <;> rfl
    case h_6 => cases h; rfl
    case h_7 a hp =>
      cases h
      cases a with
      | ret v => rfl
      | condEnq => simp only [doAft]; split <;> simp
      | genRel a b =>
        simp only [doAft]; split
        · rename_i g hgg
          have := hg (by rw [hp]; rfl) g hgg
          have hk : k ≠ g := fun e => this (by rw [e])
          simp only [setPc_chan, upd_chan]
          unfold chanRelease; (repeat' split) <;> simp [setChan, hk]
        · rfl
      | exitTail => simp only [doAft]; split <;> simp
      | fin a => rfl
    case h_8 x c v hp =>
      cases h
      obtain ⟨cs, h1, h2⟩ := hF x c v hp
      have hk : k ≠ c := by
        rintro rfl
        apply ht
        unfold selCs at h1
        split at h1 <;> cases h1 <;> rename_i e <;> simp [e, Call.things] <;> exact List.mem_of_getElem? h2
      simp [hk]
    case h_9 b _ => cases h; cases b <;> simp only [afterBlk] <;> (repeat' split) <;> simp
    case h_10 => (split at h) <;> cases h <;> simp
    case h_11 => (split at h) <;> cases h <;> simp
    case h_12 => cases h; rfl
    case h_13 a hp =>
      cases h
      have := exitNotify_chEq (k := k) (a := a) (fun g hgg e => hg (by rw [hp]; rfl) g hgg (by rw [e]))
      unfold doExit
      (repeat' split) <;> first | rfl | exact this
  | mu k =>
    show s'.mu k = s.mu k
    unfold tauCo at h
    split at h
    case h_1 => cases h
    case h_2 => cases h
    case h_3 => cases h
    case h_4 => cases h; simp
    case h_5 => (repeat' split at h) <;> cases h <;> rfl
    case h_6 => cases h; rfl
    case h_7 => cases h; simp
    case h_8 => cases h; rfl
    case h_9 b _ => cases h; cases b <;> simp only [afterBlk] <;> (repeat' split) <;> simp
    case h_10 => (split at h) <;> cases h <;> simp
    case h_11 =>
      (split at h) <;> cases h
      · rename_i e; simp only [e, Call.things, List.mem_cons, List.not_mem_nil, or_false, not_or, Thing.mu.injEq] at ht
        unfold doRelock; (repeat' split) <;> simp [setMu, ht.2]
      · rfl
    case h_12 => cases h; rfl
    case h_13 => cases h; simp
  | wg k =>
    show s'.wg k = s.wg k
    unfold tauCo at h
    split at h
    case h_1 => cases h
    case h_2 => cases h
    case h_3 => cases h
    case h_4 => cases h; simp
    case h_5 => (repeat' split at h) <;> cases h <;> rfl
    case h_6 => cases h; rfl
    case h_7 => cases h; simp
    case h_8 => cases h; rfl
    case h_9 b _ => cases h; cases b <;> simp only [afterBlk] <;> (repeat' split) <;> simp
    case h_10 => (split at h) <;> cases h <;> simp
    case h_11 =>
      (split at h) <;> cases h
      · unfold doRelock; (repeat' split) <;> simp
      · rfl
    case h_12 => cases h; rfl
    case h_13 => cases h; simp
  | cv k => trivial

/-- a step leaves every object it does not concern, and those who wait at it -/
theorem step_same {ok} {s s' : S} {a : Act} {t : Thing} (r : Reach ok s) (hs : step s a = some s') (hn : ¬ Concerns s t a) : t.same s s' := by
  have hL := reach_invL r
  have hft := step_nofault hs
  have hw : ∀ i, s.sco.cur = some i → Found (s.co i) := fun i hc => reach_found r hft i (cur_le (reach_scoWF r) hc).2
  have same : ∀ {u : S}, u.chan = s.chan → u.mu = s.mu → u.wg = s.wg → (u.lists t.q = s.lists t.q) → t.same s u := by
    intro u h1 h2 h3 h4
    refine ⟨?_, h4⟩
    cases t <;> simp only [Thing.kept, h1, h2, h3]
  cases a with
  | call c =>
    obtain ⟨i, hc, h1, h2, h3⟩ := step_call hs
    have hg : ((callSt s i c).co i).gen = (s.co i).gen := callSt_field (·.gen) (fun _ _ => rfl) s i c i
    have ht : t ∉ c.things ((callSt s i c).co i).gen := by rw [hg]; exact fun h => hn ⟨i, hc, .inl h⟩
    have hm : (c = .genStart ∨ ∃ n, c = .chMake n) → t ≠ .chan (callSt s i c).nchan := fun h e => hn ⟨i, hc, .inr ⟨h, e⟩⟩
    have hf : Free s i := hL.free (by rw [h1]; rfl)
    have hL1 : InvL (callSt s i c) := (hL.note _).updFree hf _
    rw [h3]
    have a := doCall_kept ht hm
    exact ⟨by cases t <;> exact a, doCall_q hL1 hf ht⟩
  | finish =>
    simp only [step] at hs; (repeat' split at hs) <;> cases hs
    exact same rfl rfl rfl rfl
  | tau =>
    cases hc : s.sco.cur with
    | some i =>
      simp only [step, hc] at hs; split at hs
      · cases hs
      have h1 : t ∉ (s.co i).call.things (s.co i).gen := fun h => hn ⟨i, hc, .inl h⟩
      have h2 : (s.co i).pc.ends = true → ∀ g, (s.co i).gen = some g → t ≠ .chan g := fun h g hg e => hn ⟨i, hc, .inr ⟨h, g, hg, e⟩⟩
      exact ⟨tauCo_kept hs (hw i hc) h1 h2, tauCo_q hL hs h1 (fun a g hp hg => h2 (by rw [hp]; rfl) g hg)⟩
    | none =>
      simp only [step, hc] at hs; split at hs
      · cases hs
      unfold tauMain at hs
      (repeat' split at hs) <;> cases hs <;> apply same <;> first | rfl | (simp; done) | skip
      · show (mResume s).lists t.q = _; unfold mResume; simp [setList_lists]
      · show (mIo s).lists t.q = _; unfold mIo; dsimp only; split
        · simp [setList_lists]
        · rfl
  | submit b =>
    simp only [step] at hs; (repeat' split at hs) <;> cases hs <;> exact same rfl rfl rfl rfl
  | events es =>
    simp only [step] at hs; (repeat' split at hs) <;> cases hs <;> exact same (by simp) (by simp) (by simp) (by simp)
  | clock => simp only [step] at hs; (repeat' split at hs) <;> cases hs; exact same rfl rfl rfl rfl
  | signal => simp only [step] at hs; (repeat' split at hs) <;> cases hs <;> exact same rfl rfl rfl rfl
  | wdone i =>
    simp only [step] at hs; (repeat' split at hs) <;> cases hs
    refine same rfl rfl rfl ?_
    exact push_keep (K := .iolist) (not_queued hL hn rfl) (by simp)

theorem Mvs.own {j : Nat} {s t : S} (h : Mvs j s t) : (t.co j).own = (s.co j).own := by
  induction h with
  | refl => rfl
  | head a _ ih =>
    rw [ih]
    cases a
    case wdone co _ _ _ _ _ _ _ => rw [co]
    all_goals (rename_i d; rw [d.co]; try rfl)

theorem Mvs.chanq {j c : Nat} {s t : S} (h : Mvs j s t) : Node.co j ∈ t.lists (.chanQ c) → Node.co j ∈ s.lists (.chanQ c) := by
  induction h with
  | refl => exact id
  | head a _ ih =>
    intro hm
    have hm := ih hm
    cases a
    case wdone mem _ _ _ _ _ _ => have := (mem _ _ rfl).mp hm; simp at this
    all_goals (rename_i d; exact ((d.mem _ _ rfl).mp hm).elim (·.1) (fun h => by simp at h))

/-- the buffer of a coroutine that does not run changes only when it is taken out of the queue of the channel it receives from -/
theorem Mvs.buf {j : Nat} {s t : S} (h : Mvs j s t) (hne : (t.co j).rdat ≠ (s.co j).rdat) :
    ∃ c dl, (s.co j).call = .recv c dl ∧ Node.co j ∈ s.lists (.chanQ c) ∧ Node.co j ∉ t.lists (.chanQ c) := by
  induction h with
  | refl => exact absurd rfl hne
  | @head s u t a g ih =>
    by_cases hx : (t.co j).rdat = (u.co j).rdat
    · rw [hx] at hne
      cases a
      case wdone co _ _ _ _ _ _ _ => exact absurd (by rw [co]) hne
      case take c m hn hp hc d =>
        obtain ⟨dl, hc⟩ := hc
        exact ⟨c, dl, hc, hn, fun h => by have := (d.mem _ _ rfl).mp (g.chanq h); simp at this⟩
      case bcast c m hn hp hc d =>
        obtain ⟨dl, hc⟩ := hc
        exact ⟨c, dl, hc, hn, fun h => by have := (d.mem _ _ rfl).mp (g.chanq h); simp at this⟩
      all_goals (rename_i d; exact absurd (by rw [d.co]; try rfl) hne)
    · obtain ⟨c, dl, h1, h2, h3⟩ := ih hx
      exact ⟨c, dl, by rw [← (Mvs.one a).pc.2]; exact h1, (Mvs.one a).chanq h2, h3⟩

end Neco.Rt
