import Verif.Proof.RtCase
/-!
# The slot of a channel that `neco_chan_case` reads: steps
-/
namespace Neco.Rt
open Neco.Err

theorem fault_mono_found {s s' : S} {i : Nat} {c : Call} (hf : s'.fault = false) (hw : i ≤ s.sco.nextId) (e : s' = doCall (callSt s i c) i c) (ft : fits (s'.co i)) : Found (s'.co i) := by
  intro x k v hp
  unfold fits at ft; rw [hp] at ft
  obtain ⟨cs, h1, _⟩ := ft
  refine ⟨cs, h1, ?_⟩
  have hcall : (s'.co i).call = c := by rw [e, doCall_call c (by exact hw)]; simp [callSt, upd_co]
  rw [hcall] at h1
  rw [e] at hf hp
  cases c <;> simp [selCs] at h1 <;> subst h1
  · exact chanSelect_found _ _ _ _ _ hf hp
  · exact chanSelect_found _ _ _ _ _ hf hp

theorem reach_found {ok} {s : S} (r : Reach ok s) (hf : s.fault = false) (j : Nat) (hj : j ≤ s.sco.nextId) : Found (s.co j) := by
  induction r with
  | init a e =>
    have : ((init a e).co j).pc = .user := by unfold init; dsimp only; split <;> rfl
    intro x c v h; rw [this] at h; cases h
  | @step s s' r a hok hs ih =>
    have hf0 := step_nofault hs
    by_cases hn : (a = .call .start ∨ a = .call .genStart) ∧ j = s.sco.nextId + 1
    · obtain ⟨i, g, _, h2, _⟩ := start_new hn.1 hs
      rw [← hn.2] at h2
      intro x c v h; rw [h2] at h
      unfold newCo at h; split at h <;> cases h
    have hj0 := old_id r hs hj hn
    have ih := ih hf0 hj0
    by_cases hc : s.sco.cur = some j
    · cases a with
      | call c =>
        obtain ⟨h1, h2, h3⟩ := step_call_of hs hc
        exact fault_mono_found hf hj0 h3 (reach_invN (r.step _ hok hs) hf j).ft
      | finish =>
        simp only [step, hc] at hs; (repeat' split at hs) <;> cases hs
        intro x c v h; rw [pc_setPc] at h; cases h
      | tau =>
        simp only [step, hc] at hs; split at hs
        · cases hs
        intro x c v h
        have h0 := tauCo_found hs h
        unfold tauCo at hs; rw [h0] at hs; cases hs
        rw [pc_retv] at h; cases h
      | submit b =>
        simp only [step, hc] at hs; (repeat' split at hs) <;> cases hs
        · intro x c v h; simp [setPc_co] at h
        · exact ih
      | events =>
        simp only [step, hc] at hs; split at hs
        · cases hs
        split at hs
        · rename_i h; simp at h
        · cases hs
      | clock => simp only [step] at hs; (repeat' split at hs) <;> cases hs; exact ih
      | signal => simp only [step] at hs; (repeat' split at hs) <;> cases hs <;> exact ih
      | wdone => simp only [step] at hs; (repeat' split at hs) <;> cases hs; exact ih
    · have hv := step_view hs hc hj0
      simp only [view, Prod.mk.injEq] at hv
      unfold Found; rw [hv.1, hv.2.1]; exact ih

/-- only `i` selects on `c` -/
def Only (c i : Nat) (l : List Ev) : Prop := ∀ j cl cs, .call j cl ∈ l → selCs cl = some cs → c ∈ cs → j = i

theorem Only.mono {c i : Nat} {es l : List Ev} (h : Only c i (es ++ l)) : Only c i l := fun j cl cs hm => h j cl cs (List.mem_append_right _ hm)

theorem call_mem {ok} {s : S} (r : Reach ok s) {j : Nat} (hn : (s.co j).call ≠ .none) : .call j (s.co j).call ∈ s.log := by
  obtain ⟨a, b, h, _⟩ := reach_callIn r j hn
  exact (mem_rl rfl).mp (by rw [h]; simp)

theorem sel_ne {cl : Call} {cs : List Nat} (h : selCs cl = some cs) : cl ≠ .none := by rintro rfl; cases h

/-- the cases waiting on `c` are of `i` -/
theorem Only.queue {ok} {s : S} (r : Reach ok s) {c i : Nat} (h : Only c i s.log) {j x : Nat} (hm : .case j x ∈ s.lists (.chanQ c)) : j = i := by
  have := (reach_invL r).pl _ _ hm
  simp only [place, Node.owner] at this
  obtain ⟨_, cs, dl, h1, h2⟩ := this
  have h3 : selCs (s.co j).call = some cs := by rw [h1]; rfl
  exact h j _ cs (call_mem r (sel_ne h3)) h3 (List.mem_of_getElem? h2)

/-! ## Steps that hand nothing over -/

section
variable {i j : Nat} (hj : i ≠ j)
include hj

theorem chanRecv_keep {c : Nat} {s : S} (k : Nat) (b : Bool) (dl : Int) : Deal c i k s (chanRecv s j k b dl) := by
  refine .keep (chanRecv_ri hj ..) ?_ ?_
  · unfold chanRecv; dsimp only
    (repeat' split)
    · exact .of rfl rfl
    · exact .of rfl rfl
    · exact .of rfl rfl
    · rename_i hr; refine .of (by simp [recvNow_nchan hr]) ?_
      refine Eq.trans ?_ (recvNow_slot hj (by assumption) hr)
      exact slot_chan (by simp)
    · exact .of rfl rfl
    · refine .of (by simp) ?_
      rename_i hch _ _ _ _ _
      refine Eq.trans (slot_chan (copause_chan ..)) (slot_setChan (s := push s _ _) hch rfl rfl)
  · unfold chanRecv; dsimp only
    (repeat' split)
    · rfl
    · rfl
    · rfl
    · rename_i hr; refine Eq.trans (dv_same (by simp)) (recvNow_dv hj hr)
    · rfl
    · exact dv_same (by simp)

theorem selPush_slot (s : S) (i k : Nat) (cs : List Nat) (c : Nat) : slot (selPush s i k cs) c = slot s c := by
  induction cs generalizing s k with
  | nil => rfl
  | cons x cs ih =>
    simp only [selPush]; rw [ih]
    unfold slot; dsimp only; split
    · subst_vars; rw [push_chan]; cases s.chan _ <;> rfl
    · rfl

theorem chanSelect_keep {c : Nat} {s : S} (cs : List Nat) (b : Bool) (dl : Int) (hc : c ∉ cs) : Deal c i 0 s (chanSelect s j cs dl b) := by
  refine .keep (chanSelect_ri hj ..) ?_ ?_
  · unfold chanSelect; dsimp only
    split
    · exact .of rfl rfl
    split
    · exact .of rfl rfl
    split
    · rename_i k c' hsc
      have hk := List.mem_of_getElem? (selScan_get hsc).2
      have hne : c ≠ c' := by rintro rfl; exact hc hk
      split
      · exact .of rfl rfl
      split
      · exact .of rfl rfl
      split
      · rename_i hr
        refine .of (by simp [recvNow_nchan hr]) ?_
        refine Eq.trans ?_ (recvNow_slot hj (by assumption) hr)
        unfold slot; simp [hne]
      · exact .of rfl rfl
    split
    · exact .of rfl rfl
    · refine .of (by simp) ?_
      exact Eq.trans (slot_chan (copause_chan ..)) (selPush_slot hj ..)
  · unfold chanSelect; dsimp only
    split
    · rfl
    split
    · rfl
    split
    · split
      · rfl
      split
      · rfl
      split
      · rename_i hr; refine Eq.trans (dv_same (by simp)) (recvNow_dv hj hr)
      · rfl
    split
    · rfl
    · exact dv_same (by simp)

end

theorem chanRelease_kept (s : S) (k c : Nat) : Kept c s (chanRelease s k) := by
  refine ⟨by simp, fun _ => ?_⟩
  unfold chanRelease
  split
  · exact .inl rfl
  · rename_i ch hch
    split
    · dsimp only
      by_cases e : c = k
      · exact .inr (by simp [e])
      · left; unfold slot; simp [e]
    · exact .inl (slot_setChan hch rfl rfl)

/-- the kinds of the events that hand a message over -/
theorem dv_adds {ks : List Kind} {i : Nat} {s t : S} (h : Adds ks s t) (h1 : Kind.call ∉ ks) (h2 : Kind.take ∉ ks) (h3 : Kind.bcastTo ∉ ks) : dv i t = dv i s := by
  obtain ⟨es, e1, e2⟩ := h
  rw [dv_append e1 (fun e he => kind_isCallOf (fun hk => h1 (hk ▸ e2 e he)))]
  rw [List.filter_eq_nil_iff.mpr]
  · rfl
  · intro e he hd
    have := e2 e he
    cases e <;> simp [delivTo] at hd
    · exact h2 this
    · exact h3 this

theorem doCall_deal {i j c : Nat} (hj : i ≠ j) {s : S} (cl : Call) (hn : i ≤ s.sco.nextId) (hf : ∀ k, s.nchan ≤ k → s.chan k = none) (hq : ∀ k, .co i ∉ s.lists (.chanQ k)) (ho : ∀ r x, .case r x ∈ s.lists (.chanQ c) → r = i)
    (hsel : ∀ cs, selCs cl = some cs → c ∉ cs) : ∃ k, Deal c i k s (doCall s j cl) := by
  have ho' : ∀ k, k = c → ∀ r x, .case r x ∈ s.lists (.chanQ k) → r = i := by rintro k rfl; exact ho
  cases hh : cl.hands with
  | true =>
    cases cl <;> simp [Call.hands] at hh <;> simp only [doCall]
    · exact ⟨_, chanSend_deal hj (hq _) (ho' _) ..⟩
    · exact ⟨_, chanBcast_deal hj (hq _) (ho' _) ..⟩
    · unfold chanClose; split
      · exact ⟨0, .keep rfl (.of rfl rfl) rfl⟩
      split
      · exact ⟨0, .keep (by ri_tac hj) (.of rfl rfl) rfl⟩
      · exact ⟨_, chanClose1_deal hj (by assumption) (ho' _) _⟩
    · unfold doGenYield; split
      · exact ⟨0, .keep (by ri_tac hj) (.of rfl rfl) rfl⟩
      · exact ⟨_, chanSend_deal hj (hq _) (ho' _) ..⟩
  | false =>
    have hri := doCall_ri hj s cl hn hh
    have hdv : callKinds cl ≠ [.take] → dv i (doCall s j cl) = dv i s := fun h => by
      refine dv_adds (doCall_adds s j cl) (callKinds_call _) ?_ ?_ <;> cases cl <;> simp [Call.hands, callKinds] at hh h ⊢
    cases hnc : cl.noChan with
    | true =>
      refine ⟨0, .keep hri (.of ?_ (slot_chan (doCall_chan _ _ _ hnc))) (hdv ?_)⟩
      · cases cl <;> simp [Call.noChan] at hnc <;> simp [doCall]
      · cases cl <;> simp [Call.noChan, callKinds] at hnc ⊢
    | false =>
      cases cl <;> simp [Call.noChan, Call.hands] at hnc hh
      case recv => exact ⟨_, chanRecv_keep hj ..⟩
      case tryrecv => exact ⟨_, chanRecv_keep hj ..⟩
      case select => exact ⟨_, chanSelect_keep hj _ _ _ (hsel _ rfl)⟩
      case tryselect => exact ⟨_, chanSelect_keep hj _ _ _ (hsel _ rfl)⟩
      all_goals refine ⟨0, .keep hri ?_ (hdv (by simp [callKinds]))⟩
      · refine ⟨Nat.le_succ _, fun h => .inl ?_⟩
        unfold slot; simp only [doCall, doGenStart, doStart, upd]; rw [if_neg (by omega)]
      · refine ⟨Nat.le_succ _, fun h => .inl ?_⟩
        unfold slot; simp only [doCall, retv_chan]; rw [if_neg (by omega)]
      · simp only [doCall]; split
        · exact .of rfl rfl
        · rename_i hch; exact .of rfl (slot_setChan hch rfl rfl)
      · simp only [doCall]
        exact ⟨(chanRelease_kept s _ c).1, (chanRelease_kept s _ c).2⟩

theorem schedAll_chanQ {s : S} {L : LName} {q : List Node} {k : Nat} {n : Node} (h : n ∈ (schedAll s L q).lists (.chanQ k)) : n ∈ s.lists (.chanQ k) := by
  induction q generalizing s with
  | nil => exact h
  | cons m q ih => exact (schedResume_other s m.owner (by simp)).subset (ih (s := note (schedResume s m.owner) (.wake L m.owner)) h)

theorem tauCo_deal {i j c : Nat} (hj : i ≠ j) {s s' : S} (hs : tauCo s j = some s') (ho : ∀ r x, .case r x ∈ s.lists (.chanQ c) → r = i)
    (hsel : ∀ x k v, (s.co j).pc = .selGot x k v → k ≠ c) : ∃ k, Deal c i k s s' := by
  have hdv : dv i s' = dv i s := by
    refine dv_adds (tauCo_adds hs) ?_ ?_ ?_ <;> (unfold pcKinds; split <;> simp)
  by_cases he : ∃ a, (s.co j).pc = .exitRun a
  · obtain ⟨a, he⟩ := he
    unfold tauCo at hs; rw [he] at hs; cases hs
    have key : ∀ t : S, t = exitNotify s j a → dv i t = dv i s → ∃ k, Deal c i k s t := by
      rintro t rfl hdv
      revert hdv
      unfold exitNotify; dsimp only
      split
      · intro hdv; refine ⟨0, .keep ?_ (.of (by simp) (slot_chan (by simp))) hdv⟩
        rw [setPc_co, if_neg hj]; simp
      rename_i g _
      split
      · intro hdv; exact ⟨0, .keep (by simp) (.of (by simp) (slot_chan (by simp))) hdv⟩
      rename_i ch hch
      split
      · intro hdv; refine ⟨0, .keep ?_ (.of (by simp) (slot_chan (by simp))) hdv⟩
        rw [setPc_co, if_neg hj]; simp
      · intro _
        have hli : ∀ n, n ∈ (schedAll (setList (schedAll (setList { s with all := s.all.filter (fun k => decide (k ≠ j)), allCount := s.allCount - 1, log := .exit j :: s.log } (.cancelQ j) []) (.cancelQ j) (s.lists (.cancelQ j))) (.joinQ j) []) (.joinQ j)
            ((schedAll (setList { s with all := s.all.filter (fun k => decide (k ≠ j)), allCount := s.allCount - 1, log := .exit j :: s.log } (.cancelQ j) []) (.cancelQ j) (s.lists (.cancelQ j))).lists (.joinQ j))).lists (.chanQ g) → n ∈ s.lists (.chanQ g) := by
          intro n hn
          have h1 := schedAll_chanQ hn
          rw [setList_lists, if_neg (by simp)] at h1
          have h2 := schedAll_chanQ h1
          rw [setList_lists, if_neg (by simp)] at h2
          exact h2
        refine ⟨g, Deal.pre ?_ ?_ ?_ hli ?_ (chanClose1_deal hj hch ?_ _)⟩
        · simp
        · exact slot_chan (by simp)
        · refine dv_adds (ks := [.wake, .exit]) ?_ (by simp) (by simp) (by simp)
          have h1 : Adds [.wake, .exit] s (schedAll (setList { s with all := s.all.filter (fun k => decide (k ≠ j)), allCount := s.allCount - 1, log := .exit j :: s.log } (.cancelQ j) []) (.cancelQ j) (s.lists (.cancelQ j))) :=
            (Adds.cons (e := .exit j) (t := setList { s with all := s.all.filter (fun k => decide (k ≠ j)), allCount := s.allCount - 1, log := .exit j :: s.log } (.cancelQ j) []) rfl (by simp [Ev.kind])).trans ((schedAll_adds ..).mono (by simp))
          exact h1.trans ((Adds.same (t := setList _ (.joinQ j) []) rfl).trans ((schedAll_adds ..).mono (by simp)))
        · simp
        · rintro rfl r x hm; exact ho r x (hli _ hm)
    have hx : doExit s j a = exitNotify s j a ∨ ∃ h q, doExit s j a = note (upd s j (fun k => { k with cleanup := q })) (.clean j h) := by
      unfold doExit; (repeat' split)
      · exact .inr ⟨_, _, rfl⟩
      · exact .inl rfl
      · exact .inl rfl
    rcases hx with hx | ⟨h, q, hx⟩
    · rw [hx] at hdv ⊢; exact key _ rfl hdv
    · rw [hx] at hdv ⊢; exact ⟨0, .keep (by ri_tac hj) (.of rfl rfl) hdv⟩
  · have hri := tauCo_ri hj hs (fun a h => he ⟨a, h⟩)
    refine ⟨0, .keep hri ?_ hdv⟩
    have hnc := tauCo_nchan hs
    unfold tauCo at hs
    split at hs
    case h_1 => cases hs
    case h_2 => cases hs
    case h_3 => cases hs
    case h_4 => cases hs; exact .of hnc (slot_chan (by simp))
    case h_5 => (repeat' split at hs) <;> cases hs <;> exact .of hnc (slot_chan (by simp))
    case h_6 => cases hs; exact .of hnc (slot_chan (by simp))
    case h_7 a hp =>
      cases hs
      cases a with
      | ret v => exact .of hnc rfl
      | condEnq => refine .of hnc (slot_chan ?_); simp only [doAft]; split <;> first | rfl | simp
      | genRel a b =>
        simp only [doAft]; split
        · exact chanRelease_kept s _ c
        · exact .of rfl rfl
      | exitTail => refine .of hnc (slot_chan ?_); simp only [doAft]; split <;> simp
      | fin a => refine .of hnc (slot_chan ?_); simp [doAft]
    case h_8 k v hp =>
      cases hs
      refine .of hnc ?_
      unfold slot; simp only [retv_chan]; rw [if_neg (Ne.symm (hsel _ _ _ hp))]
    case h_9 b _ => cases hs; refine .of hnc (slot_chan ?_); cases b <;> simp only [afterBlk] <;> (repeat' split) <;> simp
    case h_10 => refine .of hnc (slot_chan ?_); (split at hs) <;> cases hs <;> first | rfl | simp
    case h_11 => refine .of hnc (slot_chan ?_); (split at hs) <;> cases hs <;> first | rfl | simp
    case h_12 => cases hs; exact .of hnc rfl
    case h_13 a hp => exact absurd ⟨a, hp⟩ he

end Neco.Rt
