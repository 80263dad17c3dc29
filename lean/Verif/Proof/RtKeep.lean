import Verif.Proof.RtSwitch
/-!
# Operations that do not concern a channel leave its queue as it is
-/
namespace Neco.Rt
open Neco.Err

theorem rm_keep {s : S} {n : Node} {L : LName} (h : n ∉ s.lists L) : (rm s n).lists L = s.lists L := by
  show (s.lists L).filter _ = _
  rw [List.filter_eq_self]; intro x hx; simp; rintro rfl; exact h hx

theorem push_keep {s : S} {n : Node} {K L : LName} (h : n ∉ s.lists L) (hk : L ≠ K) : (push s K n).lists L = s.lists L := by
  simp only [push, setList_lists, if_neg hk]; exact rm_keep h

theorem sched_keep {s : S} {r : Nat} {L : LName} (h : .co r ∉ s.lists L) (hk : L ≠ .resumers) : (schedResume s r).lists L = s.lists L :=
  push_keep (s := s) h hk

theorem schedAll_q {s : S} {K L : LName} {q : List Node} (h : ∀ n ∈ q, .co n.owner ∉ s.lists L) (hk : L ≠ .resumers) :
    (schedAll s K q).lists L = s.lists L := by
  induction q generalizing s with
  | nil => rfl
  | cons n q ih =>
    have h1 := sched_keep (h n List.mem_cons_self) hk
    simp only [schedAll]
    rw [ih (s := note (schedResume s n.owner) (.wake K n.owner)) (fun x hx => by rw [note_lists, h1]; exact h x (List.mem_cons_of_mem _ hx)), note_lists, h1]

theorem handoff_keep {s : S} {m : Nat} {L : LName} {q : List Node} (h : ∀ n ∈ q, .co n.owner ∉ s.lists L) (hk : L ≠ .resumers) (hm : L ≠ .muQ m) :
    (handoff s m q).lists L = s.lists L := by
  induction q generalizing s with
  | nil => rfl
  | cons n q ih =>
    have h0 : (setList s (.muQ m) q).lists L = s.lists L := by rw [setList_lists, if_neg hm]
    have h1 : (schedResume (setList s (.muQ m) q) n.owner).lists L = s.lists L := by
      rw [sched_keep (by rw [h0]; exact h n List.mem_cons_self) hk, h0]
    unfold handoff; dsimp only
    split
    · split
      · simpa using h1
      · split
        · rw [ih]
          · simpa using h1
          · intro x hx; simp only [note_lists, setMu_lists, h1]; exact h x (List.mem_cons_of_mem _ hx)
        · simpa using h1
    · simpa using h1

/-- a coroutine in one queue is not in another -/
theorem InvL.away {s : S} (h : InvL s) {K L : LName} (hk : L ≠ K) (h1 : L ≠ .resumers) (h2 : L ≠ .iolist) : ∀ n ∈ s.lists K, .co n.owner ∉ s.lists L := by
  intro n hn hm
  cases n with
  | co j => exact hk (h.dj _ _ _ hm hn)
  | case j x =>
    have a := h.pl _ _ hn
    have b := h.pl _ _ hm
    cases K <;> simp only [place, Node.owner] at a
    cases L <;> simp [place, Node.owner, a.1] at b h1 h2

theorem Free.not {s : S} {i : Nat} (h : Free s i) {L : LName} (h1 : L ≠ .resumers) (h2 : L ≠ .iolist) : Node.co i ∉ s.lists L := by
  intro hm; rcases h L _ hm rfl with e | e
  · exact h1 e
  · exact h2 e

theorem fastUnlock_keep {s : S} (hL : InvL s) (m k : Nat) : (fastUnlock s m).lists (.chanQ k) = s.lists (.chanQ k) := by
  unfold fastUnlock; dsimp only
  (repeat' split) <;> first | rfl | skip
  rw [handoff_keep (s := setMu s m _) (fun n hn => hL.away (by simp) (by simp) (by simp) n hn) (by simp) (by simp)]; rfl

macro "keep_tac" : tactic => `(tactic| (simp only [setPc_lists, retv_lists, note_lists, copause_lists, dlClear_lists, upd_lists, coyield_lists, yfsr_lists, scoResume_lists, setMu_lists, setWg_lists]))

theorem finishLock_keep {s : S} {i m k : Nat} {rd : Bool} {dl : Int} {b : Blk} (h : Node.co i ∉ s.lists (.chanQ k)) :
    (finishLock s i m rd dl b).lists (.chanQ k) = s.lists (.chanQ k) := by
  unfold finishLock; dsimp only; rw [copause_lists]
  exact push_keep (K := .muQ m) (s := upd s i _) h (by simp)
theorem cvEnq_keep {s : S} {i v k : Nat} {dl : Int} (h : Node.co i ∉ s.lists (.chanQ k)) : (cvEnq s i v dl).lists (.chanQ k) = s.lists (.chanQ k) := by
  unfold cvEnq; dsimp only; rw [copause_lists]; exact push_keep (K := .cvQ v) h (by simp)

/-- a call that does not concern channels leaves their queues -/
theorem doCall_keep {s : S} {i k : Nat} {c : Call} (hL : InvL s) (hf : Free s i) (hc : c.noChan = true) :
    (doCall s i c).lists (.chanQ k) = s.lists (.chanQ k) := by
  have hi : Node.co i ∉ s.lists (.chanQ k) := hf.not (by simp) (by simp)
  cases c <;> first | (simp [Call.noChan] at hc; done) | (simp only [doCall]; done) | skip
  all_goals simp only [doCall]
  all_goals first | (simp; done) | skip
  case join id dl =>
    unfold doJoin; dsimp only
    (repeat' split) <;> first | rfl | skip
    rw [copause_lists]; exact push_keep (s := dlClear s i) hi (by simp)
  case lock m dl =>
    unfold muLock; dsimp only
    (repeat' split) <;> first | rfl | skip
    exact finishLock_keep (s := dlClear s i) hi
  case rdlock m dl =>
    unfold muRdlock; dsimp only
    (repeat' split) <;> first | rfl | skip
    exact finishLock_keep (s := dlClear s i) hi
  case unlock m =>
    unfold muUnlock; split <;> simp only [yfsr_lists, coyield_lists] <;>
      exact fastUnlock_keep (s := note s _) (hL.congr rfl (fun _ => rfl) (Nat.le_refl _) rfl) m k
  case wgDone w =>
    unfold wgDone; dsimp only
    (repeat' split)
    · rfl
    · rfl
    all_goals first | rfl | skip
    · rename_i q _ _
      rw [yfsr_lists, schedAll_q]
      · simp [setList_lists]
      · intro n hn; simp only [setList_lists, setWg_lists]; rw [if_neg (by simp)]
        exact hL.away (K := .wgQ w) (by simp) (by simp) (by simp) n (by simpa using hn)
      · simp
  case wgWait w dl =>
    unfold wgWait; dsimp only
    (repeat' split) <;> first | rfl | skip
    rw [copause_lists]; exact push_keep (K := .wgQ w) (s := dlClear s i) hi (by simp)
  case cvSignal v =>
    unfold cvSignal
    split
    · rfl
    · simp [setList_lists]
  case cvBcast v =>
    unfold cvBcast
    rw [yfsr_lists, schedAll_q]
    · simp [setList_lists]
    · intro n hn; simp only [setList_lists]; rw [if_neg (by simp)]
      exact hL.away (K := .cvQ v) (by simp) (by simp) (by simp) n hn
    · simp
  case cvWait v m dl =>
    unfold cvWait
    have h1 : ∀ e, (fastUnlock (note s e) m).lists (.chanQ k) = s.lists (.chanQ k) := fun e =>
      fastUnlock_keep (s := note s e) (hL.congr rfl (fun _ => rfl) (Nat.le_refl _) rfl) m k
    (repeat' split)
    · rfl
    · rw [yfsr_lists]; exact h1 _
    · rw [cvEnq_keep (by rw [h1]; exact hi)]; exact h1 _
  case sigWait dl =>
    unfold doSigWait; dsimp only
    (repeat' split) <;> first | rfl | skip
    rw [copause_lists]; exact push_keep (K := .sigQ) (s := upd s i _) hi (by simp)

/-- a step inside the library leaves the queues of the channels, except that the coroutine leaves its own -/
theorem tauCo_keep {s s' : S} {i k : Nat} (hL : InvL s) (h : tauCo s i = some s') (h2 : ∀ a, (s.co i).pc ≠ .exitRun a)
    (hi : Node.co i ∉ s.lists (.chanQ k)) (hx : ∀ x, Node.case i x ∉ s.lists (.chanQ k)) : s'.lists (.chanQ k) = s.lists (.chanQ k) := by
  unfold tauCo at h
  split at h
  case h_1 => cases h
  case h_2 => cases h
  case h_3 => cases h
  case h_4 => cases h; simp
  case h_5 => (repeat' split at h) <;> cases h <;> rfl
  case h_6 => cases h; rfl
  case h_7 a hp =>
    cases h
    cases a with
    | ret v => rfl
    | condEnq => simp only [doAft]; split
                 · exact cvEnq_keep hi
                 · rfl
    | genRel a b => simp only [doAft]; split <;> simp
    | exitTail => simp only [doAft]; split <;> simp
    | fin a => simp only [doAft, doFin]; exact rm_keep hi
  case h_8 => cases h; rfl
  case h_9 b _ =>
    cases h
    have e1 : (preBlk (unpause s i) i b).lists = s.lists := by simp
    have hi1 : Node.co i ∉ (preBlk (unpause s i) i b).lists (.chanQ k) := by rw [e1]; exact hi
    have hx1 : ∀ x, Node.case i x ∉ (preBlk (unpause s i) i b).lists (.chanQ k) := by rw [e1]; exact hx
    rw [← e1]
    generalize preBlk (unpause s i) i b = t at *
    cases b <;> simp only [afterBlk] <;> (repeat' split) <;> simp only [retv_lists, dlClear_lists, setPc_lists, upd_lists, note_lists] <;> first
      | rfl
      | exact rm_keep hi1
      | skip
    all_goals show ((t.lists _).filter _) = _
    all_goals rw [List.filter_eq_self]
    all_goals
      intro n hn
      cases n with
      | co j => rfl
      | case j x => simp; rintro rfl; exact hx1 x hn
  case h_10 =>
    (split at h) <;> cases h
    · unfold doCancel; dsimp only
      (repeat' split) <;> first | rfl | skip
      rw [copause_lists]; exact push_keep (s := dlClear s i) hi (by simp)
    · rfl
  case h_11 =>
    (split at h) <;> cases h
    · unfold doRelock; dsimp only
      (repeat' split) <;> first | rfl | skip
      exact finishLock_keep (s := dlClear s i) hi
    · rfl
  case h_12 => cases h; rfl
  case h_13 a hp => exact absurd hp (h2 a)

end Neco.Rt
