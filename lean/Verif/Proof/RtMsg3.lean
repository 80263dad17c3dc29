import Verif.Proof.RtMsg2
/-!
# Channels hold what was put into them: every execution
-/
namespace Neco.Rt
open Neco.Err

theorem Mv.smsg {j : Nat} {s t : S} (h : Mv j s t) : (t.co j).smsg = (s.co j).smsg := by
  cases h <;> first | (rename_i h; rw [h.co]; done) | (rename_i h; rw [h.co]; rfl) | skip
  rename_i h _ _ _ _ _ _ _; rw [h]
theorem Mvs.smsg {j : Nat} {s t : S} (h : Mvs j s t) : (t.co j).smsg = (s.co j).smsg := by
  induction h with
  | refl => rfl
  | head a _ ih => rw [ih, a.smsg]

/-- a message offered by a sender stays what it is -/
theorem step_smsg {ok} {s s' : S} {a : Act} (r : Reach ok s) (hs : step s a = some s') {j : Nat} (hj : s.sco.cur ≠ some j) (hn : j ≤ s.sco.nextId) : (s'.co j).smsg = (s.co j).smsg :=
  (step_other (reach_invL r) (reach_invC r) hs hj (fun _ => by omega) ((reach_invF r).cf j).evU).smsg

theorem OpenQ.exit {s t : S} {i : Nat} {a : Bool} (h : OpenQ s i) (hL : InvL s) (ht : t = exitNotify s i a) (hft : t.fault = false)
    (hm : ∀ k, ∀ n ∈ s.lists (.chanQ k), (t.co n.owner).smsg = (s.co n.owner).smsg) : Hist PM t.log ∧ ∀ k, QM t k := by
  unfold exitNotify at ht
  extract_lets t1 qc t2 qj t3 sched at ht
  have hk1 : ∀ k, t2.lists (.chanQ k) = s.lists (.chanQ k) := by
    intro k
    show (schedAll (setList t1 (.cancelQ i) []) (.cancelQ i) (s.lists (.cancelQ i))).lists _ = _
    rw [schedAll_q]
    · simp [setList_lists, t1]
    · intro n hn; rw [setList_lists, if_neg (by simp)]; exact hL.away (K := .cancelQ i) (by simp) (by simp) (by simp) n hn
    · simp
  have hj2 : (t2.lists (.joinQ i)) = s.lists (.joinQ i) := by
    show (schedAll (setList t1 (.cancelQ i) []) (.cancelQ i) (s.lists (.cancelQ i))).lists _ = _
    rw [schedAll_q]
    · simp [setList_lists, t1]
    · intro n hn; rw [setList_lists, if_neg (by simp)]; exact hL.away (K := .cancelQ i) (by simp) (by simp) (by simp) n hn
    · simp
  have hk3 : ∀ k, t3.lists (.chanQ k) = s.lists (.chanQ k) := by
    intro k
    show (schedAll (setList t2 (.joinQ i) []) (.joinQ i) (t2.lists (.joinQ i))).lists _ = _
    rw [hj2, schedAll_q]
    · rw [setList_lists, if_neg (by simp), hk1]
    · intro n hn; rw [setList_lists, if_neg (by simp), hk1]; exact hL.away (K := .joinQ i) (by simp) (by simp) (by simp) n hn
    · simp
  have hco : t3.co = s.co := by simp [t3, t2, t1]
  have hch : t3.chan = s.chan := by simp [t3, t2, t1]
  have hadd : Adds [.exit, .wake] s t3 := by
    have a1 : Adds [.exit, .wake] s t1 := .cons (e := .exit i) rfl (by simp [Ev.kind])
    have a2 : ∀ (u : S) (L : LName) q, Adds [.exit, .wake] u (schedAll (setList u L []) L q) := fun u L q =>
      ((schedAll_adds (setList u L []) L q).mono (by simp)).pre rfl
    exact (a1.trans (a2 t1 _ _)).trans (a2 t2 _ _)
  have h3 : OpenQ t3 i := by
    refine ⟨?_, fun k => ?_, fun k => ?_, h.hs.adds hadd (fun e b hk => PM.other ?_ b)⟩
    · exact ((Free.schedAll (Free.setList (show Free t1 i from h.fr) (nil_sub _ _)) _ _).setList (nil_sub _ _)).schedAll _ _
    · exact (h.ok k).mono (by rw [hch]) (by rw [hk3]; exact List.Sublist.refl _) (fun n _ => by rw [hco])
    · exact (h.qm k).keep (by rw [hch]) (content_adds hadd (by simp [msgKind]) k) (fun _ _ _ => hk3 k) (fun n _ => by rw [hco])
    · revert hk; cases e.kind <;> simp [msgKind]
  have hL3 : InvL t3 → InvL t3 := id
  have hm3 : ∀ k, ∀ n ∈ t3.lists (.chanQ k), (t.co n.owner).smsg = (t3.co n.owner).smsg := fun k n hn => by
    rw [hco]; exact hm k n (by rwa [hk3] at hn)
  have hsame : t.log = t3.log → t.lists = t3.lists → t.chan = t3.chan → Hist PM t.log ∧ ∀ k, QM t k := fun h1 h2 h3' =>
    ⟨by rw [h1]; exact h3.hs, fun k => (h3.qm k).keep (by rw [h3']) (by rw [h1]) (fun _ _ _ => by rw [h2]) (hm3 k)⟩
  split at ht
  · exact hsame (by rw [ht]; rfl) (by rw [ht]; rfl) (by rw [ht]; rfl)
  split at ht
  · subst ht; simp at hft
  split at ht
  · exact hsame (by rw [ht]; rfl) (by rw [ht]; rfl) (by rw [ht]; rfl)
  · rename_i hc _
    refine h3.close1 ?_ hc ht hm3
    have b1 : InvL t1 := hL.congr rfl (fun _ => rfl) (Nat.le_refl _) rfl
    have b2 : InvL t2 := InvL.schedAll (b1.setList (nil_sub _ _)) _ _ (fun n hn => b1.ow _ n hn)
    exact InvL.schedAll (b2.setList (nil_sub _ _)) _ _ (fun n hn => b2.ow _ n hn)

/-! ## Nothing is put into a channel that does not exist -/

theorem chanSend_cn {s : S} {i c k : Nat} {m : Msg} {dl : Int} (hk : s.chan k = none) : content k (chanSend s i c m dl).log = content k s.log := by
  unfold chanSend
  split
  · rfl
  rename_i ch hc
  have hkc : c ≠ k := by rintro rfl; rw [hc] at hk; cases hk
  split
  · rfl
  split
  · rfl
  have hl : content k (sendTry (note s (.put c i m)) c m ch).1.log = content k s.log := by
    unfold sendTry; split
    · rcases sendLoop_log (note s (.put c i m)) c m ((note s (.put c i m)).lists (.chanQ c)) with h1 | ⟨r, h1, h2, h3⟩
      · rw [h1.2]; simp [content, hkc]
      · rw [h2]; simp [content, hkc]
    · simp [content, hkc]
  dsimp only
  split
  · simpa using hl
  · unfold sendRest; split
    · simpa using hl
    · simpa using hl

theorem recvNow_cn {s t : S} {c r k : Nat} {ch : Chan} {m : Msg} {o : Option Nat} (hk : c ≠ k) (h : recvNow s c r ch = some (m, o, t)) : content k t.log = content k s.log := by
  unfold recvNow at h
  (repeat' split at h) <;> first
    | (simp at h; done)
    | (simp at h; obtain ⟨_, _, rfl⟩ := h; first | rfl | simp [content, hk])

theorem chanRecv_cn {s : S} {i c k : Nat} {tr : Bool} {dl : Int} (hk : s.chan k = none) : content k (chanRecv s i c tr dl).log = content k s.log := by
  unfold chanRecv
  split
  · rfl
  rename_i ch hc
  have hkc : c ≠ k := by rintro rfl; rw [hc] at hk; cases hk
  split
  · rfl
  split
  · rfl
  split
  · rename_i h; simp; exact recvNow_cn hkc h
  · split
    · rfl
    · simp

theorem chanSelect_cn {s : S} {i k : Nat} {cs : List Nat} {tr : Bool} {dl : Int} (hk : s.chan k = none) : content k (chanSelect s i cs dl tr).log = content k s.log := by
  unfold chanSelect
  split
  · rfl
  split
  · rfl
  split
  · split
    · rfl
    rename_i ch hc
    split
    · rfl
    split
    · rename_i h; simp; exact recvNow_cn (by rintro rfl; rw [hc] at hk; cases hk) h
    · rfl
  · split
    · rfl
    · simp

/-- when a channel operation is undefined, nothing happened yet -/
theorem chanSend_flt {s : S} {i c : Nat} {m : Msg} {dl : Int} (h0 : s.fault = false) (h : (chanSend s i c m dl).fault = true) : (chanSend s i c m dl).log = s.log := by
  unfold chanSend at h ⊢
  split
  · rfl
  · rename_i ch hc
    rw [hc] at h; dsimp only at h
    split
    · rfl
    rename_i h1; rw [if_neg h1] at h
    split
    · rfl
    rename_i h2; rw [if_neg h2] at h
    exfalso
    have e : (sendTry (note s (.put c i m)) c m ch).1.fault = false := by simp [h0]
    split at h
    · simp [h0] at h
    · simp [h0] at h
theorem chanBcast_flt {s : S} {i c : Nat} {m : Msg} (h0 : s.fault = false) (h : (chanBcast s i c m).fault = true) : (chanBcast s i c m).log = s.log := by
  unfold chanBcast at h ⊢
  split
  · rfl
  · rename_i ch hc
    rw [hc] at h; dsimp only at h
    split
    · rfl
    rename_i h1; rw [if_neg h1] at h
    simp [h0] at h
theorem recvNow_flt {s t : S} {c r : Nat} {ch : Chan} {m : Msg} {o : Option Nat} (h0 : s.fault = false) (h : recvNow s c r ch = some (m, o, t)) (hf : t.fault = true) : t.log = s.log := by
  unfold recvNow at h
  (repeat' split at h) <;> first
    | (simp at h; done)
    | (simp at h; obtain ⟨_, _, rfl⟩ := h; first | rfl | (simp [h0] at hf))
theorem chanRecv_flt {s : S} {i c : Nat} {tr : Bool} {dl : Int} (h0 : s.fault = false) : (chanRecv s i c tr dl).fault = true → (chanRecv s i c tr dl).log = s.log := by
  generalize ht : chanRecv s i c tr dl = t
  intro h
  unfold chanRecv at ht
  split at ht
  · subst ht; rfl
  split at ht
  · subst ht; rfl
  split at ht
  · subst ht; rfl
  split at ht
  · rename_i hr
    subst ht; simp at h ⊢; exact recvNow_flt h0 hr h
  · split at ht <;> subst ht <;> simp
theorem chanSelect_flt {s : S} {i : Nat} {cs : List Nat} {tr : Bool} {dl : Int} (h0 : s.fault = false) : (chanSelect s i cs dl tr).fault = true → (chanSelect s i cs dl tr).log = s.log := by
  generalize ht : chanSelect s i cs dl tr = t
  intro h
  unfold chanSelect at ht
  split at ht
  · subst ht; rfl
  split at ht
  · subst ht; rfl
  split at ht
  · split at ht
    · subst ht; rfl
    split at ht
    · subst ht; rfl
    split at ht
    · rename_i hr
      subst ht; simp at h ⊢; exact recvNow_flt h0 hr h
    · subst ht; rfl
  · split at ht <;> subst ht <;> simp

structure InvM (s : S) : Prop where
  hs : Hist PM s.log
  fresh : ∀ k, s.nchan ≤ k → content k s.log = []
  ok : s.fault = false → ∀ k, QM s k

theorem callKinds_nomsg {c : Call} (h : c.noChan = true) : ∀ k ∈ callKinds c, msgKind k = false := by
  cases c <;> simp [Call.noChan] at h <;> simp [callKinds, msgKind]

theorem pcKinds_nomsg {p : Pc} (h : p ≠ .blk .send) : ∀ k ∈ pcKinds p, msgKind k = false := by
  unfold pcKinds; split <;> first | (simp [msgKind]; done) | exact absurd rfl h

/-- a blocked sender leaves the queue of its channel, and its message is withdrawn -/
theorem InvM.withdrawn {ok} {s s' : S} {c i : Nat} (h : InvM s) (r : Reach ok s) (hft : s.fault = false) (h3 : (s.co i).pc = .blk .send) (hsc : sendOf (s.co i) = some c)
    (hin : Node.co i ∈ s.lists (.chanQ c)) (es : List Ev) (hes : ∀ e ∈ es, msgKind e.kind = false) (hl : s'.log = es ++ .withdraw c i :: s.log) (hnc : s'.nchan = s.nchan)
    (hcore : ∀ k, (s'.chan k).map core = (s.chan k).map core) (hls : ∀ k, s'.lists (.chanQ k) = (s.lists (.chanQ k)).filter (fun n => decide (n ≠ .co i)))
    (hsm : ∀ k, ∀ n ∈ s.lists (.chanQ k), n.owner ≠ i → (s'.co n.owner).smsg = (s.co n.owner).smsg) : InvM s' := by
  have hL := reach_invL r
  have hC := reach_invC r
  have hu := hC.ok hft
  have hq := h.ok hft
  have hcase : ∀ k x, Node.case i x ∉ s.lists (.chanQ k) := by
    intro k x hn; have := hL.pl _ _ hn; simp only [place, Node.owner] at this; rw [h3] at this; cases this.1
  have hcon : ∀ k, content k s'.log = content k (.withdraw c i :: s.log) := by
    intro k; rw [hl]
    clear hl
    induction es with
    | nil => rfl
    | cons e es ih =>
      have h1 := hes e List.mem_cons_self
      have h2 := ih (fun e he => hes e (List.mem_cons_of_mem _ he))
      rw [← h2]
      cases e <;> first | rfl | (simp [msgKind, Ev.kind] at h1)
  have hcs : s.chan c ≠ none := by
    intro e; rw [(hu c).1 e] at hin; cases hin
  cases hcc : s.chan c with
  | none => exact absurd hcc hcs
  | some ch =>
    have hok := (hu c).2 ch hcc
    have hqr : ch.qrecv = false := by
      cases e : ch.qrecv with
      | false => rfl
      | true => exact absurd h3 (hok.rcv e _ hin)
    obtain ⟨A, hA, hAb⟩ := hq c ch hcc
    obtain ⟨q1, q2, hqq⟩ := List.append_of_mem hin
    have hnd := hL.nd (.chanQ c)
    rw [hqq] at hnd
    have hn1 : ∀ n ∈ q1, n.owner ≠ i := by
      intro n hn e
      cases n with
      | co j => cases e; exact (List.nodup_append.mp hnd).2.2 _ hn _ List.mem_cons_self rfl
      | case j x => cases e; exact hcase c x (by rw [hqq]; exact List.mem_append_left _ hn)
    have hn2 : ∀ n ∈ q2, n.owner ≠ i := by
      intro n hn e
      cases n with
      | co j => cases e; exact (List.nodup_cons.mp (List.nodup_append.mp hnd).2.1).1 hn
      | case j x => cases e; exact hcase c x (by rw [hqq]; exact List.mem_append_right _ (List.mem_cons_of_mem _ hn))
    have hoff : offers s ch c = q1.map (fun n => (n.owner, (s.co n.owner).smsg)) ++ (i, (s.co i).smsg) :: q2.map (fun n => (n.owner, (s.co n.owner).smsg)) := by
      unfold offers; simp [hqr, hqq, Node.owner]
    rw [hoff] at hA
    have hpd : (∃ m dl, pending i s.log = some (.send c m dl)) ∨ ∃ m dl, pending i s.log = some (.genYield m dl) := by
      unfold sendOf at hsc
      split at hsc
      · rename_i e; cases hsc; exact .inl ⟨_, _, (pending_call r).mpr ⟨e, by simp⟩⟩
      · rename_i e; exact .inr ⟨_, _, (pending_call r).mpr ⟨e, by simp⟩⟩
      · cases hsc
    have hun2 : content c s'.log = A ++ (q1.map (fun n => (n.owner, (s.co n.owner).smsg)) ++ q2.map (fun n => (n.owner, (s.co n.owner).smsg))) := by
      rw [hcon]; simp only [content, if_pos, hA, unsend]
      rw [← List.append_assoc, List.reverse_append, List.reverse_cons, List.append_assoc, List.eraseP_append_right]
      · simp
      · intro x hx
        simp only [List.mem_reverse, List.mem_map] at hx
        obtain ⟨n, hn, rfl⟩ := hx
        simpa using hn2 n hn
    have hq' : s'.lists (.chanQ c) = q1 ++ q2 := by
      rw [hls, hqq, List.filter_append, List.filter_cons]
      simp
      congr 1
      · rw [List.filter_eq_self]; intro n hn; simp; rintro rfl; exact hn1 _ hn rfl
      · rw [List.filter_eq_self]; intro n hn; simp; rintro rfl; exact hn2 _ hn rfl
    refine ⟨?_, fun k hk => ?_, fun _ k => ?_⟩
    · rw [hl]
      have h0 : Hist PM (.withdraw c i :: s.log) := by
        refine ⟨⟨⟨(s.co i).smsg, _, _, by rw [hA, ← List.append_assoc], ?_⟩, hpd⟩, h.hs⟩
        intro x hx
        obtain ⟨n, hn, rfl⟩ := List.mem_map.mp hx
        exact hn2 n hn
      clear hl
      induction es with
      | nil => exact h0
      | cons e es ih => exact ⟨PM.other (hes e List.mem_cons_self) _, ih (fun e he => hes e (List.mem_cons_of_mem _ he))⟩
    · rw [hnc] at hk
      have : c ≠ k := by rintro rfl; rw [hC.fresh _ hk] at hcc; cases hcc
      rw [hcon]; simp only [content, if_neg this]; exact h.fresh k hk
    · by_cases hk : k = c
      · subst hk
        intro ch' e
        obtain ⟨x, e1, e2⟩ := chan_core (hcore k) e
        rw [hcc] at e1; cases e1
        simp only [core, Prod.mk.injEq] at e2
        refine ⟨A, ?_, by rw [hAb]; exact e2.2.2.2.2⟩
        rw [hun2]; unfold offers
        rw [← e2.2.2.1, hqr, hq']
        simp only [Bool.false_eq_true, if_false, List.map_append]
        congr 2
        · exact List.map_congr_left (fun n hn => by rw [hsm k n (by rw [hqq]; exact List.mem_append_left _ hn) (hn1 n hn)])
        · exact List.map_congr_left (fun n hn => by rw [hsm k n (by rw [hqq]; exact List.mem_append_right _ (List.mem_cons_of_mem _ hn)) (hn2 n hn)])
      · have hx : Node.co i ∉ s.lists (.chanQ k) := by
          intro hx; have := hL.dj _ _ _ hx hin; simp at this; exact hk this
        refine (hq k).keep (hcore k) (by rw [hcon]; simp [content, Ne.symm hk]) (fun _ _ _ => ?_) (fun n hn => hsm k n hn ?_)
        · rw [hls, List.filter_eq_self]; intro n hn; simp; rintro rfl; exact hx hn
        · intro e
          cases n with
          | co j => cases e; exact hx hn
          | case j x => cases e; exact hcase k x hn

theorem InvM.step {ok} {s s' : S} {a : Act} (h : InvM s) (r : Reach ok s) (hs : step s a = some s') : InvM s' := by
  have hft := step_nofault hs
  have hL := reach_invL r
  have hC := reach_invC r
  have hw := reach_scoWF r
  have hu := hC.ok hft
  have hq := h.ok hft
  have hsm : ∀ k, ∀ n ∈ s.lists (.chanQ k), s.sco.cur ≠ some n.owner → (s'.co n.owner).smsg = (s.co n.owner).smsg := fun k n hn hne =>
    step_smsg r hs hne (hL.ow _ n hn)
  have hs0 := hs
  have quiet : Adds (stepKinds s a) s s' → (∀ k ∈ stepKinds s a, msgKind k = false) → (∀ k, s'.chan k = s.chan k) → s.nchan ≤ s'.nchan →
      (∀ k, s'.lists (.chanQ k) = s.lists (.chanQ k)) → (∀ k, ∀ n ∈ s.lists (.chanQ k), (s'.co n.owner).smsg = (s.co n.owner).smsg) → InvM s' := by
    intro hadd hk hch hn hl hm
    have hc := content_adds hadd (fun k hk' => .inl (hk k hk'))
    refine ⟨h.hs.adds hadd (fun e b he => PM.other (hk _ he) b), fun k hk' => by rw [hc]; exact h.fresh k (Nat.le_trans hn hk'), fun _ k => ?_⟩
    exact (hq k).keep (by rw [hch]) (hc k) (fun _ _ _ => hl k) (hm k)
  unfold Rt.step at hs
  split at hs
  · cases hs
  cases a with
  | call c =>
    simp only at hs
    split at hs
    · cases hs
    rename_i i hc
    split at hs
    rotate_left
    · cases hs
    rename_i hpc
    have hf : Free s i := hL.free (by rw [hpc.1]; rfl)
    have hL1 : InvL (callSt s i c) := (hL.congr (t := note s (.call i c)) rfl (fun _ => rfl) (Nat.le_refl _) rfl).updFree hf _
    have hpd : pending i (callSt s i c).log = some c := by simp [callSt, pending]
    have ho1 : OpenQ (callSt s i c) i := by
      refine ⟨hf, fun k => ?_, fun k => ?_, ⟨trivial, h.hs⟩⟩
      · exact (hu k).mono rfl (List.Sublist.refl _) (fun n _ => by unfold callSt; rw [upd_co]; split <;> simp_all)
      · exact (hq k).keep rfl rfl (fun _ _ _ => rfl) (fun n _ => by unfold callSt; rw [upd_co]; split <;> simp_all)
    have hm1 : ∀ k, ∀ n ∈ (callSt s i c).lists (.chanQ k), (s'.co n.owner).smsg = ((callSt s i c).co n.owner).smsg := by
      intro k n hn
      have : n.owner ≠ i := hf.chanq hn
      rw [hsm k n hn (by rw [hc]; simp; exact fun e => this e.symm)]
      unfold callSt; rw [upd_co, if_neg this]; rfl
    have hfr : ∀ k, (callSt s i c).nchan ≤ k → content k (callSt s i c).log = [] := h.fresh
    have hfc : ∀ k, (callSt s i c).nchan ≤ k → (callSt s i c).chan k = none := hC.fresh
    have hft1 : (callSt s i c).fault = false := hft
    have hs1 : s' = doCall (callSt s i c) i c := by cases hs; rfl
    have hadd := doCall_adds (callSt s i c) i c
    rw [← hs1] at hadd
    clear hsm
    generalize callSt s i c = s1 at *
    have fin : Hist PM s'.log → (∀ k, s1.nchan ≤ k → content k s'.log = content k s1.log) → s1.nchan ≤ s'.nchan → (s'.fault = false → ∀ k, QM s' k) → InvM s' := fun a b c d =>
      ⟨a, fun k hk => by rw [b k (Nat.le_trans c hk)]; exact hfr k (Nat.le_trans c hk), d⟩
    have h10 : s1.fault = false := hft1
    have fin4 : (s'.fault = true → s'.log = s1.log) → (∀ k, s1.chan k = none → content k s'.log = content k s1.log) → s'.nchan = s1.nchan → (s'.fault = false → Hist PM s'.log ∧ ∀ k, QM s' k) → InvM s' := by
      intro a b c d
      refine fin ?_ (fun k hk => b k (hfc k hk)) (Nat.le_of_eq c.symm) (fun hx => (d hx).2)
      cases hx : s'.fault with
      | true => rw [a hx]; exact ho1.hs
      | false => exact (d hx).1
    have finq : (∀ k ∈ callKinds c, msgKind k = false) → s1.nchan ≤ s'.nchan → (s'.fault = false → ∀ k, QM s' k) → InvM s' := fun hk b c =>
      fin (ho1.hs.adds hadd (fun e b he => PM.other (hk _ he) b)) (fun k _ => content_adds hadd (fun k hk' => .inl (hk k hk')) k) b c
    by_cases hnc : c.noChan = true
    · have hk := callKinds_nomsg hnc
      refine finq hk ?_ (fun _ k => ?_)
      · rw [hs1]; cases c <;> first | (simp [Call.noChan] at hnc; done) | simp [doCall]
      · exact (ho1.qm k).keep (by rw [hs1, doCall_chan _ _ _ hnc]) (content_adds hadd (fun k hk' => .inl (hk k hk')) k) (fun _ _ _ => by rw [hs1]; exact doCall_keep hL1 ho1.fr hnc) (hm1 k)
    · cases c <;> first | (simp [Call.noChan] at hnc; done) | simp only [doCall] at hs1
      case send c m dl =>
        rw [hs1] at fin4
        exact hs1 ▸ fin4 (chanSend_flt h10) (fun k hk => chanSend_cn hk) (by simp) (fun hx => ho1.send rfl hx (.inl ⟨dl, hpd⟩) (by rw [← hs1]; exact hm1))
      case bcast c m =>
        rw [hs1] at fin4
        exact hs1 ▸ fin4 (chanBcast_flt h10) (fun k hk => content_adds (chanBcast_adds ..) (by simp) k) (by simp) (fun hx => ho1.bcast hL1 rfl hx hpd (by rw [← hs1]; exact hm1))
      case recv c dl =>
        rw [hs1] at fin4
        exact hs1 ▸ fin4 (chanRecv_flt h10) (fun k hk => chanRecv_cn hk) (by simp) (fun hx => ho1.recv hL1 rfl hx (by rw [← hs1]; exact hm1))
      case tryrecv c =>
        rw [hs1] at fin4
        exact hs1 ▸ fin4 (chanRecv_flt h10) (fun k hk => chanRecv_cn hk) (by simp) (fun hx => ho1.recv hL1 rfl hx (by rw [← hs1]; exact hm1))
      case select cs dl =>
        rw [hs1] at fin4
        exact hs1 ▸ fin4 (chanSelect_flt h10) (fun k hk => chanSelect_cn hk) (by simp) (fun hx => ho1.select hL1 rfl hx (by rw [← hs1]; exact hm1))
      case tryselect cs =>
        rw [hs1] at fin4
        exact hs1 ▸ fin4 (chanSelect_flt h10) (fun k hk => chanSelect_cn hk) (by simp) (fun hx => ho1.select hL1 rfl hx (by rw [← hs1]; exact hm1))
      case genYield m dl =>
        unfold doGenYield at hs1
        split at hs1
        · refine fin4 (fun hx => by rw [hs1]; rfl) (fun k _ => by rw [hs1]; rfl) (by rw [hs1]; rfl) (fun _ => ?_)
          exact ⟨by rw [hs1]; exact ho1.hs, fun k => (ho1.qm k).keep (by rw [hs1]; rfl) (by rw [hs1]; rfl) (fun _ _ _ => by rw [hs1]; rfl) (hm1 k)⟩
        · rw [hs1] at fin4
          exact hs1 ▸ fin4 (chanSend_flt h10) (fun k hk => chanSend_cn hk) (by simp) (fun hx => ho1.send rfl hx (.inr ⟨dl, hpd⟩) (by rw [← hs1]; exact hm1))
      case close c =>
        refine finq (by simp [callKinds]) (by rw [hs1]; simp) (fun hx k => ?_)
        unfold chanClose at hs1
        split at hs1
        · rw [hs1] at hx; simp at hx
        split at hs1
        · exact (ho1.qm k).keep (by rw [hs1]; rfl) (by rw [hs1]; rfl) (fun _ _ _ => by rw [hs1]; rfl) (hm1 k)
        · rename_i hcc _
          exact (ho1.close1 hL1 hcc hs1 hm1).2 k
      case chRelease c =>
        refine finq (by simp [callKinds]) (by rw [hs1]; simp) (fun hx k => ?_)
        unfold chanRelease at hs1
        split at hs1
        · rw [hs1] at hx; simp at hx
        rename_i ch hcc
        split at hs1
        · by_cases hk : k = c
          · intro x e; rw [hs1] at e; simp [hk] at e
          · exact (ho1.qm k).keep (by rw [hs1]; simp [hk]) (by rw [hs1]; rfl) (fun _ _ _ => by rw [hs1]; rfl) (hm1 k)
        · refine (ho1.qm k).keep ?_ (by rw [hs1]; rfl) (fun _ _ _ => by rw [hs1]; rfl) (hm1 k)
          rw [hs1]; simp only [retv_chan, setChan]; split
          · rename_i e; subst e; rw [hcc]; rfl
          · rfl
      case chRetain c =>
        refine finq (by simp [callKinds]) (by rw [hs1]; split <;> simp) (fun hx k => ?_)
        split at hs1
        · rw [hs1] at hx; simp at hx
        rename_i ch hcc
        refine (ho1.qm k).keep ?_ (by rw [hs1]; rfl) (fun _ _ _ => by rw [hs1]; rfl) (hm1 k)
        rw [hs1]; simp only [retv_chan, setChan]; split
        · rename_i e; subst e; rw [hcc]; rfl
        · rfl
      case chMake cap =>
        refine finq (by simp [callKinds]) (by rw [hs1]; simp) (fun hx k => ?_)
        by_cases hk : k = s1.nchan
        · subst hk
          have hl : s'.log = s1.log := by rw [hs1]; rfl
          intro x e; rw [hs1] at e; simp at e; subst e
          refine ⟨[], ?_, rfl⟩
          have hl0 : s'.lists (.chanQ s1.nchan) = [] := by
            rw [hs1]; exact (ho1.ok _).1 (hfc _ (Nat.le_refl _))
          rw [hl, hfr _ (Nat.le_refl _)]; unfold offers; rw [hl0]; simp
        · exact (ho1.qm k).keep (by rw [hs1]; simp [hk]) (by rw [hs1]; rfl) (fun _ _ _ => by rw [hs1]; rfl) (hm1 k)
      case genStart =>
        refine finq (by simp [callKinds, msgKind]) (by rw [hs1]; simp [doGenStart, doStart]) (fun hx k => ?_)
        by_cases hk : k = s1.nchan
        · subst hk
          have hl : content s1.nchan s'.log = content s1.nchan s1.log := by rw [hs1]; rfl
          intro x e; rw [hs1] at e; simp [doGenStart] at e; subst e
          refine ⟨[], ?_, rfl⟩
          have hl0 : s'.lists (.chanQ s1.nchan) = [] := by
            rw [hs1]; exact (ho1.ok _).1 (hfc _ (Nat.le_refl _))
          rw [hl, hfr _ (Nat.le_refl _)]; unfold offers; rw [hl0]; simp
        · exact (ho1.qm k).keep (by rw [hs1]; simp [doGenStart, hk]) (by rw [hs1]; rfl) (fun _ _ _ => by rw [hs1]; rfl) (hm1 k)
  | finish =>
    simp only at hs
    split at hs
    · cases hs
    split at hs <;> cases hs
    exact quiet (step_adds hs0) (by simp [stepKinds]) (fun _ => rfl) (Nat.le_refl _) (fun _ => rfl) (fun k n _ => by rw [setPc_co]; split <;> rename_i e <;> simp [e])
  | tau =>
    simp only at hs
    split at hs
    · rename_i i hc
      have hi := (cur_le hw hc).2
      have hadd := tauCo_adds hs
      have mkq : (∀ k ∈ pcKinds (s.co i).pc, msgKind k = false) → s.nchan ≤ s'.nchan → (s'.fault = false → ∀ k, QM s' k) → InvM s' := fun hk b c =>
        ⟨h.hs.adds hadd (fun e b he => PM.other (hk _ he) b), fun k hk' => by rw [content_adds hadd (fun k hk' => .inl (hk k hk')) k]; exact h.fresh k (Nat.le_trans b hk'), c⟩
      have hsm' : ∀ k, (∀ n ∈ s.lists (.chanQ k), n.owner ≠ i) → ∀ n ∈ s.lists (.chanQ k), (s'.co n.owner).smsg = (s.co n.owner).smsg := fun k hx n hn =>
        hsm k n hn (by rw [hc]; simp; exact fun e => hx n hn e.symm)
      by_cases h1 : ∃ a b, (s.co i).pc = .go (.genRel a b)
      · obtain ⟨sc, as, hp⟩ := h1
        have hf : Free s i := hL.free (by rw [hp]; rfl)
        have hm := fun k => hsm' k (fun n hn => hf.chanq hn)
        refine mkq (by rw [hp]; simp [pcKinds]) (Nat.le_of_eq (tauCo_nchan hs).symm) (fun hx k => ?_)
        have hc0 := content_adds hadd (by rw [hp]; simp [pcKinds]) k
        unfold tauCo at hs; rw [hp] at hs; simp only [doAft] at hs
        split at hs
        · simp only [Option.some.injEq] at hs
          unfold chanRelease at hs
          split at hs
          · rw [← hs] at hx; simp at hx
          rename_i g _ _ ch hcc
          split at hs
          · by_cases hk : k = g
            · intro x e; rw [← hs] at e; simp [hk] at e
            · exact (hq k).keep (by rw [← hs]; simp [hk]) hc0 (fun _ _ _ => by rw [← hs]; rfl) (hm k)
          · refine (hq k).keep ?_ hc0 (fun _ _ _ => by rw [← hs]; rfl) (hm k)
            rw [← hs]; simp only [setPc_chan, upd_chan, setChan]; split
            · rename_i e; subst e; rw [hcc]; rfl
            · rfl
        · cases hs; simp at hx
      by_cases h2 : ∃ a, (s.co i).pc = .exitRun a
      · obtain ⟨as, hp⟩ := h2
        have hf : Free s i := hL.free (by rw [hp]; rfl)
        have hm := fun k => hsm' k (fun n hn => hf.chanq hn)
        have hc0 := content_adds hadd (by rw [hp]; simp [pcKinds, msgKind])
        refine mkq (by rw [hp]; simp [pcKinds, msgKind]) (Nat.le_of_eq (tauCo_nchan hs).symm) (fun hx k => ?_)
        unfold tauCo at hs; rw [hp] at hs; simp only [doExit, Option.some.injEq] at hs
        have ho : OpenQ s i := ⟨hf, hu, hq, h.hs⟩
        (repeat' split at hs)
        · exact (hq k).keep (by rw [← hs]; rfl) (hc0 k) (fun _ _ _ => by rw [← hs]; rfl) (hm k)
        · exact (ho.exit hL hs.symm hx hm).2 k
        · exact (ho.exit hL hs.symm hx hm).2 k
      have hcore := fun k => tauCo_chan hs (fun a b e => h1 ⟨a, b, e⟩) (fun a e => h2 ⟨a, e⟩) k
      have hkeep : ∀ k, Node.co i ∉ s.lists (.chanQ k) → (∀ x, Node.case i x ∉ s.lists (.chanQ k)) → content k s'.log = content k s.log → QM s' k := by
        intro k hx hy hl
        refine (hq k).keep (hcore k) hl (fun _ _ _ => tauCo_keep hL hs (fun a e => h2 ⟨a, e⟩) hx hy) (hsm' k ?_)
        intro n hn e
        cases n with
        | co j => cases e; exact hx hn
        | case j x => cases e; exact hy x hn
      by_cases h3 : (s.co i).pc = .blk .send
      · have hcase : ∀ k x, Node.case i x ∉ s.lists (.chanQ k) := by
          intro k x hn; have := hL.pl _ _ hn; simp only [place, Node.owner] at this; rw [h3] at this; cases this.1
        have hsc : ∀ k, Node.co i ∈ s.lists (.chanQ k) → sendOf (s.co i) = some k := by
          intro k hn
          have := hL.pl _ _ hn; simp only [place, Node.owner] at this
          rcases this with h4 | h4
          · exact h4.2
          · rw [h3] at h4; cases h4.1
        have hsc2 : sendChan (unpause s i) i = sendOf (s.co i) := by
          have e : ((unpause s i).co i).call = (s.co i).call ∧ ((unpause s i).co i).gen = (s.co i).gen := by
            unfold unpause; split
            · simp [upd_co]
            · exact ⟨rfl, rfl⟩
          unfold sendChan sendOf; rw [e.1, e.2]; cases (s.co i).call <;> rfl
        have hlog : s'.log = (preBlk (unpause s i) i .send).log := by
          unfold tauCo at hs; rw [h3] at hs; simp only [Option.some.injEq] at hs; rw [← hs]; simp [afterBlk]
        have hun : (unpause s i).lists = s.lists := by simp
        by_cases hin : ∃ k, Node.co i ∈ s.lists (.chanQ k)
        · obtain ⟨c, hin⟩ := hin
          have hsc := hsc c hin
          have hl : s'.log = .withdraw c i :: s.log := by
            rw [hlog]; simp only [preBlk, hsc2, hsc, noteWithdraw, hun, if_pos hin]; simp
          refine h.withdrawn r hft h3 hsc hin [] (by simp) hl (tauCo_nchan hs) hcore (fun k => ?_) (fun k n hn e => hsm k n hn (by rw [hc]; simp; exact fun x => e x.symm))
          unfold tauCo at hs; rw [h3] at hs; simp only [Option.some.injEq] at hs
          rw [← hs]; simp only [afterBlk, retv_lists, dlClear_lists]
          show (List.filter _ ((preBlk (unpause s i) i Blk.send).lists _)) = _
          rw [preBlk_lists, hun]
        · have hl : s'.log = s.log := by
            rw [hlog]; simp only [preBlk]; split
            · unfold noteWithdraw; rw [hun]; rw [if_neg (fun hx => hin ⟨_, hx⟩)]; simp
            · simp
          exact ⟨by rw [hl]; exact h.hs, fun k hk => by rw [hl]; rw [tauCo_nchan hs] at hk; exact h.fresh k hk,
            fun _ k => hkeep k (fun hx => hin ⟨k, hx⟩) (hcase k) (by rw [hl])⟩
      · have hk := pcKinds_nomsg h3
        have hc0 := content_adds hadd (fun k hk' => .inl (hk k hk'))
        refine mkq hk (Nat.le_of_eq (tauCo_nchan hs).symm) (fun hx k => ?_)
        -- a queue `i` is in belongs to receivers
        cases hcc : s.chan k with
        | none =>
          intro ch e
          obtain ⟨x, e1, e2⟩ := chan_core (hcore k) e
          rw [hcc] at e1; cases e1
        | some ch =>
          have hok := (hu k).2 ch hcc
          cases hqr : ch.qrecv with
          | false =>
            have hno : ∀ n ∈ s.lists (.chanQ k), n.owner ≠ i := fun n hn e => h3 (e ▸ hok.snd hqr n hn)
            exact hkeep k (fun hx => hno _ hx rfl) (fun x hx => hno _ hx rfl) (hc0 k)
          | true =>
            intro ch' e
            obtain ⟨x, e1, e2⟩ := chan_core (hcore k) e
            rw [hcc] at e1; cases e1
            simp only [core, Prod.mk.injEq] at e2
            obtain ⟨A, hA, hAb⟩ := hq k ch hcc
            refine ⟨A, ?_, by rw [hAb]; exact e2.2.2.2.2⟩
            rw [hc0, hA]; unfold offers; rw [← e2.2.2.1, hqr]; simp
    · rename_i hc
      obtain ⟨e1, e2, e3⟩ := tauMain_Q hs
      refine quiet (step_adds hs0) ?_ (fun k => by rw [e2]) (Nat.le_of_eq e3.symm) e1 (fun k n hn => hsm k n hn (by rw [hc]; simp))
      simp only [stepKinds, hc]
      unfold mainKinds; split <;> simp [msgKind]
  | submit ok =>
    simp only at hs
    split at hs
    · cases hs
    rename_i i hc
    split at hs
    · rename_i hpc
      have hf : Free s i := hL.free (by rw [hpc]; rfl)
      have hm : ∀ k, ∀ n ∈ s.lists (.chanQ k), (s'.co n.owner).smsg = (s.co n.owner).smsg := fun k n hn => hsm k n hn (by rw [hc]; simp; exact fun e => hf.chanq hn e.symm)
      split at hs <;> cases hs
      · exact quiet (step_adds hs0) (by simp [stepKinds]) (fun _ => rfl) (Nat.le_refl _) (fun _ => rfl) hm
      · exact quiet (step_adds hs0) (by simp [stepKinds]) (fun _ => rfl) (Nat.le_refl _) (fun _ => rfl) hm
    · cases hs
  | events evs =>
    simp only at hs
    split at hs
    rotate_left
    · cases hs
    rename_i hcond
    have hm : ∀ k, ∀ n ∈ s.lists (.chanQ k), (s'.co n.owner).smsg = (s.co n.owner).smsg := fun k n hn => hsm k n hn (by rw [hcond.1]; simp)
    cases hs
    refine quiet (step_adds hs0) (by simp [stepKinds, msgKind]) (fun k => ?_) ?_ (fun k => ?_) hm
    · show (if s.nevwaiters > 0 then mEvents s evs else s).chan k = _; split <;> simp
    · show _ ≤ (if s.nevwaiters > 0 then mEvents s evs else s).nchan; split <;> simp
    · show (if s.nevwaiters > 0 then mEvents s evs else s).lists _ = _; split <;> simp
  | clock t =>
    simp only at hs; split at hs <;> cases hs
    exact quiet (step_adds hs0) (by simp [stepKinds]) (fun _ => rfl) (Nat.le_refl _) (fun _ => rfl) (fun _ _ _ => rfl)
  | signal n =>
    simp only at hs; (repeat' split at hs) <;> cases hs <;>
      exact quiet (step_adds hs0) (by simp [stepKinds, msgKind]) (fun _ => rfl) (Nat.le_refl _) (fun _ => rfl) (fun _ _ _ => rfl)
  | wdone i =>
    simp only at hs; split at hs <;> cases hs
    rename_i hj
    by_cases hin : ∃ c, sendChan s i = some c ∧ Node.co i ∈ s.lists (.chanQ c)
    · obtain ⟨c, hsc, hin⟩ := hin
      have hpl := hL.pl _ _ hin
      simp only [place, Node.owner] at hpl
      rcases hpl with ⟨h3, h4⟩ | ⟨_, dl, h4⟩
      · refine h.withdrawn r hft h3 h4 hin [.wdone i] (by simp [msgKind, Ev.kind]) ?_ rfl (fun _ => rfl) (fun k => ?_) (fun _ _ _ _ => rfl)
        · show _ :: (leave s i ++ s.log) = _
          unfold leave; rw [hsc]; simp [hin]
        · simp [push, setList, rm]
      · unfold sendChan at hsc; rw [h4] at hsc; cases hsc
    · have hlv : leave s i = [] := leave_nil (fun c h1 h2 => hin ⟨c, h1, h2⟩)
      have hadd : Adds [.wdone] s (push { s with log := .wdone i :: (leave s i ++ s.log), jobs := s.jobs.erase i } .iolist (.co i)) :=
        .cons (e := .wdone i) (by rw [hlv]; rfl) (by simp [Ev.kind])
      have hc := content_adds hadd (by simp [msgKind])
      refine ⟨h.hs.adds hadd (fun e b he => PM.other (by simp at he; simp [he, msgKind]) b), fun k hk' => by rw [hc]; exact h.fresh k hk', fun _ k => ?_⟩
      refine (hq k).keep rfl (hc k) (fun ch hcc hqr => ?_) (fun _ _ => rfl)
      refine push_keep (K := .iolist) (L := .chanQ k) ?_ (by simp)
      intro hn
      have h3 := ((hu k).2 ch hcc).snd hqr _ hn
      have hpl := hL.pl _ _ hn
      simp only [place, Node.owner] at hpl
      rcases hpl with ⟨_, h4⟩ | ⟨h4, _⟩
      · refine hin ⟨k, ?_, hn⟩
        unfold sendOf at h4; unfold sendChan; exact h4
      · simp only [Node.owner] at h3; rw [h3] at h4; cases h4

theorem reach_invM {ok} {s : S} (r : Reach ok s) : InvM s := by
  induction r with
  | init a e => exact ⟨by simp [init, Hist, PM], fun k _ => rfl, fun _ k ch e => by simp [init] at e⟩
  | step h a ho hs ih => exact ih.step h hs

end Neco.Rt
