import Verif.Proof.RtFlag2
import Verif.Proof.RtQueue
/-!
# The deadline queue is sorted by (deadline, identifier)
-/
namespace Neco.Rt
open Neco.Err

/-- the order of the deadline queue, neco.c 3390-3395 -/
def dlLt (co : Nat → Co) (a b : Nat) : Prop :=
  (co a).deadline < (co b).deadline ∨ ((co a).deadline = (co b).deadline ∧ a < b)

theorem dlInsert_sorted {co : Nat → Co} {i : Nat} {q : List Nat} (h : q.Pairwise (dlLt co)) (hi : i ∉ q) :
    (dlInsert co i q).Pairwise (dlLt co) := by
  induction q with
  | nil => simp [dlInsert]
  | cons j q ih =>
    rw [List.pairwise_cons] at h
    simp only [dlInsert]; split
    · rename_i hlt
      refine List.pairwise_cons.2 ⟨?_, List.pairwise_cons.2 h⟩
      intro k hk
      rcases List.mem_cons.1 hk with hk | hk
      · subst hk; exact hlt
      · have := h.1 k hk; unfold dlLt at this ⊢; omega
    · rename_i hlt
      refine List.pairwise_cons.2 ⟨?_, ih h.2 (fun hm => hi (List.mem_cons_of_mem _ hm))⟩
      intro k hk
      rcases mem_dlInsert.1 hk with hk | hk
      · subst hk
        have : j ≠ k := fun e => hi (by simp [e])
        unfold dlLt; omega
      · exact h.1 k hk

/-- the queue is as it was, or the coroutine was inserted -/
def PS (i : Nat) (q : List Nat) (t : S) : Prop := t.dlq = q ∨ t.dlq = dlInsert t.co i q

theorem copause_ps {s : S} {q : List Nat} (h : s.dlq = q) (i : Nat) (dl : Int) (b : Blk) : PS i q (copause s i dl b) := by
  unfold copause; dsimp only; split
  · left; simpa using h
  · split
    · right; simp [h]
    · left; simpa using h

section
variable (s : S) (i : Nat)

theorem sendRest_ps (c : Nat) (m : Msg) (dl : Int) (ch : Chan) : PS i s.dlq (sendRest s i c m dl ch) := by
  unfold sendRest; (try dsimp only); (repeat' split)
  all_goals first
    | (refine copause_ps ?_ _ _ _; simp; done)
    | (left; simp; done)
theorem chanSend_ps (c : Nat) (m : Msg) (dl : Int) : PS i s.dlq (chanSend s i c m dl) := by
  unfold chanSend; (try dsimp only); (repeat' split)
  all_goals first
    | (left; simp; done)
    | (have := sendRest_ps (sendTry (note s (.put c i m)) c m (by assumption)).1 i c m dl (by assumption); simpa using this)
theorem chanRecv_ps (c : Nat) (t : Bool) (dl : Int) : PS i s.dlq (chanRecv s i c t dl) := by
  unfold chanRecv; (try dsimp only); (repeat' split)
  all_goals first
    | (refine copause_ps ?_ _ _ _; simp; done)
    | (left; simp; done)
    | (rename_i e; have := recvNow_dlq e; left; simpa using this)
theorem chanSelect_ps (cs : List Nat) (dl : Int) (t : Bool) : PS i s.dlq (chanSelect s i cs dl t) := by
  unfold chanSelect; (try dsimp only); (repeat' split)
  all_goals first
    | (refine copause_ps ?_ _ _ _; simp; done)
    | (left; simp; done)
    | (rename_i e; have := recvNow_dlq e; left; simpa using this)
    | skip
theorem finishLock_ps (m : Nat) (rd : Bool) (dl : Int) (b : Blk) : PS i s.dlq (finishLock s i m rd dl b) := by
  unfold finishLock; exact copause_ps (by simp) ..
theorem muLock_ps (m : Nat) (dl : Int) : PS i s.dlq (muLock s i m dl) := by
  unfold muLock; (try dsimp only); (repeat' split)
  all_goals first
    | (left; simp; done)
    | (have := finishLock_ps (dlClear s i) i; simp at this; apply this)
    | (apply finishLock_ps)
theorem muRdlock_ps (m : Nat) (dl : Int) : PS i s.dlq (muRdlock s i m dl) := by
  unfold muRdlock; (try dsimp only); (repeat' split)
  all_goals first
    | (left; simp; done)
    | (have := finishLock_ps (dlClear s i) i; simp at this; apply this)
    | (apply finishLock_ps)
theorem wgWait_ps (w : Nat) (dl : Int) : PS i s.dlq (wgWait s i w dl) := by
  unfold wgWait; (try dsimp only); (repeat' split)
  all_goals first
    | (refine copause_ps ?_ _ _ _; simp; done)
    | (left; simp; done)
theorem cvEnq_ps (v : Nat) (dl : Int) : PS i s.dlq (cvEnq s i v dl) := by
  unfold cvEnq; exact copause_ps (by simp) ..
theorem cvWait_ps (v m : Nat) (dl : Int) : PS i s.dlq (cvWait s i v m dl) := by
  unfold cvWait; (try dsimp only); (repeat' split)
  all_goals first
    | (left; simp; done)
    | (have h := cvEnq_ps (fastUnlock (note s (.release m i)) m) i v dl; simpa using h)
theorem doSleep_ps (dl : Int) : PS i s.dlq (doSleep s i dl) := by
  unfold doSleep; (try dsimp only); (repeat' split)
  all_goals first
    | (refine copause_ps ?_ _ _ _; simp; done)
    | (left; simp; done)
theorem doJoin_ps (id : Nat) (dl : Int) : PS i s.dlq (doJoin s i id dl) := by
  unfold doJoin; (try dsimp only); (repeat' split)
  all_goals first
    | (refine copause_ps ?_ _ _ _; simp; done)
    | (left; simp; done)
theorem doSuspend_ps (dl : Int) : PS i s.dlq (doSuspend s i dl) := by
  unfold doSuspend; exact copause_ps (by simp) ..
theorem doCancel_ps (id : Nat) (dl : Int) : PS i s.dlq (doCancel s i id dl) := by
  unfold doCancel; (try dsimp only); (repeat' split)
  all_goals first
    | (refine copause_ps ?_ _ _ _; simp; done)
    | (left; simp; done)
theorem doSigWait_ps (dl : Int) : PS i s.dlq (doSigWait s i dl) := by
  unfold doSigWait; (try dsimp only); (repeat' split)
  all_goals first
    | (refine copause_ps ?_ _ _ _; simp; done)
    | (left; simp; done)
theorem doWait_ps (fd : Nat) (w : Bool) (dl : Int) : PS i s.dlq (doWait s i fd w dl) := by
  unfold doWait; exact copause_ps (by simp) ..
theorem doGenYield_ps (m : Msg) (dl : Int) : PS i s.dlq (doGenYield s i m dl) := by
  unfold doGenYield; split
  · exact .inl (by simp)
  · exact chanSend_ps ..
theorem doRelock_ps (m : Nat) : PS i s.dlq (doRelock s i m) := by
  unfold doRelock; (repeat' split)
  all_goals first
    | (left; simp; done)
    | (have := finishLock_ps (dlClear s i) i m false MAX .relock; simpa using this)

theorem doCall_ps (c : Call) : PS i s.dlq (doCall s i c) := by
  cases c <;> simp only [doCall]
  case sleep => exact doSleep_ps ..
  case join => exact doJoin_ps ..
  case suspend => exact doSuspend_ps ..
  case send => exact chanSend_ps ..
  case recv => exact chanRecv_ps ..
  case tryrecv => exact chanRecv_ps ..
  case select => exact chanSelect_ps ..
  case tryselect => exact chanSelect_ps ..
  case genYield => exact doGenYield_ps ..
  case lock => exact muLock_ps ..
  case rdlock => exact muRdlock_ps ..
  case wgWait => exact wgWait_ps ..
  case cvWait => exact cvWait_ps ..
  case sigWait => exact doSigWait_ps ..
  case wait => exact doWait_ps ..
  case chRetain => exact .inl (by split <;> simp)
  all_goals exact .inl (by simp)

theorem afterBlk_dlq (b : Blk) : (afterBlk s i b).dlq = s.dlq := by
  cases b <;> simp only [afterBlk] <;> (repeat' split) <;> simp [selRm]

end

theorem tauCo_ps {s s' : S} {i : Nat} (hs : tauCo s i = some s') (hd : i ∈ s.dlq → (s.co i).paused = true ∧ (s.co i).pc.isBlk = true) :
    PS i (s.dlq.filter (fun j => decide (j ≠ i))) s' := by
  have hk : (s.co i).pc.isBlk = false → s.dlq.filter (fun j => decide (j ≠ i)) = s.dlq := by
    intro hb
    rw [List.filter_eq_self]
    intro j hj
    by_cases e : j = i
    · subst e; have := (hd hj).2; rw [hb] at this; cases this
    · simpa using e
  unfold tauCo at hs
  split at hs
  case h_1 => cases hs
  case h_2 => cases hs
  case h_3 => cases hs
  case h_4 e => cases hs; rw [hk (by rw [e]; rfl)]; exact .inl (by simp)
  case h_5 e => rw [hk (by rw [e]; rfl)]; (repeat' split at hs) <;> cases hs <;> exact .inl (by simp)
  case h_6 e => cases hs; rw [hk (by rw [e]; rfl)]; exact .inl (by simp)
  case h_7 a e =>
    rw [hk (by rw [e]; rfl)]
    cases hs
    cases a with
    | condEnq =>
      simp only [doAft]; split
      · exact cvEnq_ps ..
      · exact .inl rfl
    | _ => left; simp only [doAft] <;> (repeat' split) <;> simp
  case h_8 e => cases hs; rw [hk (by rw [e]; rfl)]; exact .inl (by simp)
  case h_9 b e =>
    cases hs; left
    rw [afterBlk_dlq, preBlk_dlq]
    unfold unpause; split
    · rfl
    · rename_i hp
      symm; rw [List.filter_eq_self]
      intro j hj
      by_cases e : j = i
      · subst e; exact absurd (hd hj).1 hp
      · simpa using e
  case h_10 e =>
    rw [hk (by rw [e]; rfl)]
    (split at hs) <;> cases hs
    · exact doCancel_ps ..
    · exact .inl rfl
  case h_11 e =>
    rw [hk (by rw [e]; rfl)]
    (split at hs) <;> cases hs
    · exact doRelock_ps ..
    · exact .inl rfl
  case h_12 e => cases hs; rw [hk (by rw [e]; rfl)]; exact .inl (by simp)
  case h_13 e => cases hs; rw [hk (by rw [e]; rfl)]; exact .inl (by simp)

theorem tauMain_dlq {s s' : S} (hs : tauMain s = some s') : s'.dlq = s.dlq := by
  unfold tauMain at hs
  (repeat' split at hs) <;> cases hs <;> simp

theorem step_ps {s s' : S} {a : Act} (hF : InvF s) (hs : step s a = some s') :
    (∃ i, s.sco.cur = some i ∧ PS i (s.dlq.filter (fun j => decide (j ≠ i))) s') ∨
    (s'.dlq = s.dlq ∧ (s.sco.cur = none ∨ s'.co = s.co)) := by
  have hk : ∀ i, (s.co i).pc.isBlk = false → s.dlq.filter (fun j => decide (j ≠ i)) = s.dlq := by
    intro i hb
    rw [List.filter_eq_self]
    intro j hj
    by_cases e : j = i
    · subst e; have := (hF.cf j).pb ((hF.cf j).dq.1 hj).1; rw [hb] at this; cases this
    · simpa using e
  unfold step at hs
  split at hs
  · cases hs
  cases a with
  | call c =>
    simp only at hs
    split at hs
    · cases hs
    rename_i i hc
    split at hs <;> cases hs
    rename_i hp
    refine .inl ⟨i, hc, ?_⟩
    rw [hk i (by rw [hp.1]; rfl)]
    exact doCall_ps (upd (note s (.call i c)) i (fun k => { k with call := c })) i c
  | finish =>
    simp only at hs
    split at hs
    · cases hs
    rename_i i hc
    split at hs <;> cases hs
    rename_i hp
    refine .inl ⟨i, hc, ?_⟩
    rw [hk i (by rw [hp]; rfl)]
    exact .inl rfl
  | tau =>
    simp only at hs
    split at hs
    · rename_i i hc
      exact .inl ⟨i, hc, tauCo_ps hs (fun h => ⟨((hF.cf i).dq.1 h).1, (hF.cf i).pb ((hF.cf i).dq.1 h).1⟩)⟩
    · rename_i hc; exact .inr ⟨tauMain_dlq hs, .inl hc⟩
  | submit ok =>
    simp only at hs
    split at hs
    · cases hs
    rename_i i hc
    split at hs
    · rename_i hp
      refine .inl ⟨i, hc, ?_⟩
      rw [hk i (by rw [hp]; rfl)]
      split at hs <;> cases hs <;> exact .inl rfl
    · cases hs
  | events evs =>
    simp only at hs
    split at hs <;> cases hs
    rename_i hp
    refine .inr ⟨?_, .inl hp.1⟩
    dsimp only; split <;> simp
  | clock t => simp only at hs; split at hs <;> cases hs; exact .inr ⟨rfl, .inr rfl⟩
  | signal n => simp only at hs; (repeat' split at hs) <;> cases hs <;> exact .inr ⟨rfl, .inr rfl⟩
  | wdone i => simp only at hs; split at hs <;> cases hs; exact .inr ⟨rfl, .inr rfl⟩

theorem Mvs.deadline {j : Nat} {s t : S} (h : Mvs j s t) : (t.co j).deadline = (s.co j).deadline := by
  induction h with
  | refl => rfl
  | head a _ ih =>
    rw [ih]
    cases a
    case wdone co _ _ _ _ _ _ _ => rw [co]
    all_goals (rename_i d; rw [d.co]; try rfl)

theorem sorted_congr {co co' : Nat → Co} {q : List Nat} (h : q.Pairwise (dlLt co)) (he : ∀ j ∈ q, (co' j).deadline = (co j).deadline) :
    q.Pairwise (dlLt co') := by
  rw [List.pairwise_iff_forall_sublist] at h ⊢
  intro a b hab
  have := h hab
  have ha := hab.subset (show a ∈ [a, b] by simp)
  have hb := hab.subset (show b ∈ [a, b] by simp)
  unfold dlLt at this ⊢
  rw [he a ha, he b hb]; exact this

theorem reach_sorted {ok} {s : S} (r : Reach ok s) : s.dlq.Pairwise (dlLt s.co) := by
  induction r with
  | init a e => simp [init]
  | @step s s' r a hok hs ih =>
    have hF := reach_invF r
    have hw := reach_scoWF r
    have hoth : ∀ j, j ∈ s.dlq → s.sco.cur ≠ some j → (s'.co j).deadline = (s.co j).deadline := by
      intro j hj hc
      refine (step_other (reach_invL r) (reach_invC r) hs hc ?_ (hF.cf j).evU).deadline
      intro _ e
      have := (hF.cf j).pb ((hF.cf j).dq.1 hj).1
      rw [hF.fresh j (by omega)] at this; cases this
    rcases step_ps hF hs with ⟨i, hc, h⟩ | ⟨h1, h2⟩
    · have hs1 : (s.dlq.filter (fun j => decide (j ≠ i))).Pairwise (dlLt s'.co) := by
        refine sorted_congr (ih.sublist List.filter_sublist) ?_
        intro j hj
        rw [List.mem_filter] at hj
        refine hoth j hj.1 ?_
        rw [hc]; intro e; cases e; simp at hj
      rcases h with h | h
      · rw [h]; exact hs1
      · rw [h]; exact dlInsert_sorted hs1 (by simp)
    · rw [h1]
      refine sorted_congr ih ?_
      intro j hj
      rcases h2 with h2 | h2
      · exact hoth j hj (by rw [h2]; simp)
      · rw [h2]

theorem filter_takeWhile {α} {R : α → α → Prop} {p : α → Bool} (hp : ∀ a b, R a b → p b = true → p a = true) {l : List α} (h : l.Pairwise R) :
    l.filter p = l.takeWhile p := by
  induction l with
  | nil => rfl
  | cons a l ih =>
    rw [List.pairwise_cons] at h
    rw [List.filter_cons, List.takeWhile_cons]
    split
    · rw [ih h.2]
    · rename_i hn
      rw [List.filter_eq_nil_iff]
      intro b hb hpb
      exact hn (hp a b (h.1 b hb) hpb)

theorem wakeAll_queue {s : S} (h : s.sco.cur = none) {q : List Nat} (hn : q.Nodup) :
    (wakeAll s q).sco.yielders = s.sco.yielders ++ q.filter (fun i => decide (i ∈ s.sco.paused)) := by
  induction q generalizing s with
  | nil => simp [wakeAll]
  | cons k q ih =>
    rw [List.nodup_cons] at hn
    simp only [wakeAll]
    rw [ih (s := scoResume s k) (resume_main_cur h k) hn.2]
    simp only [scoResume, resume_main h]
    rw [List.filter_cons]
    by_cases hk : k ∈ s.sco.paused
    · simp only [hk, if_true, decide_true, Sco.wake, List.append_assoc, List.singleton_append]
      congr 2
      apply List.filter_congr
      intro j hj
      have : j ≠ k := fun e => hn.1 (e ▸ hj)
      simp [this]
    · simp [hk]

end Neco.Rt
