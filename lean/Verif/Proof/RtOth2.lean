import Verif.Proof.RtOth
/-!
# What a call does to the coroutines that are not running
-/
namespace Neco.Rt
open Neco.Err

/-! ## The other loops over queues -/

theorem Mvs.schedAll {j : Nat} {L : LName} {q : List Node} {s : S} (hnil : s.lists L = []) (hLr : L ≠ .resumers)
    (hL : (∃ w, L = .wgQ w) ∨ (∃ v, L = .cvQ v) ∨ (∃ t, L = .joinQ t) ∨ (∃ t, L = .cancelQ t))
    (hnd : q.Nodup) (hco : ∀ n ∈ q, n = .co n.owner) : Mvs j (setList s L q) (schedAll s L q) := by
  induction q generalizing s with
  | nil =>
    refine .same rfl ?_ Iff.rfl Iff.rfl (fun _ _ => Iff.rfl) rfl rfl (Int.le_refl _)
    intro n K _
    simp only [Rt.schedAll, setList_lists]; split
    · subst_vars; rw [hnil]
    · rfl
  | cons n q ih =>
    simp only [Rt.schedAll]
    have hn := (List.nodup_cons.mp hnd).1
    have hcn := hco n List.mem_cons_self
    generalize n.owner = r at *
    subst hcn
    refine .trans (t := setList (note (schedResume s r) (.wake L r)) L q) ?_ (ih ?_ (List.nodup_cons.mp hnd).2 (fun x hx => hco x (List.mem_cons_of_mem _ hx)))
    · by_cases e : j = r
      · subst e
        refine .one (.wake L false (by simp [setList_lists]) hL ⟨rfl, ?_, by simp [setList], by simp [setList], by simp [setList], by simp [setList],
          by simp [lg, setList, note, Ev.about], by simp [setList]⟩)
        intro x K ho
        by_cases hK : K = L
        · subst hK
          simp only [setList_lists, if_true, List.mem_cons]
          constructor
          · intro hx; left; exact ⟨.inr hx, fun e => hn (e ▸ hx)⟩
          · rintro (⟨hx | hx, hg⟩ | hx)
            · exact absurd hx hg
            · exact hx
            · exact absurd hx.2.2 hLr
        · simp only [setList_lists, hK, if_false, note_lists, mem_sched]
          constructor
          · rintro (hx | hx)
            · exact .inl hx
            · exact .inr ⟨rfl, hx.2, hx.1⟩
          · rintro (hx | hx)
            · exact .inl hx
            · exact .inr ⟨hx.2.2, hx.2.1⟩
      · refine .same rfl ?_ Iff.rfl (by simp [setList]) (by simp [setList]) (by simp [setList]) (by simp [lg, setList, note, Ev.about, Ne.symm e]) (by simp [setList])
        intro x K ho
        have := owner_ne ho e
        by_cases hK : K = L
        · simp [setList_lists, hK, this]
        · simp [setList_lists, hK, mem_sched, this]
    · have : ∀ x, x ∉ (schedResume s r).lists L := by
        intro x; rw [mem_sched, hnil]; simp [hLr]
      simpa using List.eq_nil_iff_forall_not_mem.mpr this

theorem Mvs.handoff {j m : Nat} {q : List Node} {s : S} (hq : ∀ x, x ∈ s.lists (.muQ m) ↔ x ∈ q)
    (hnd : q.Nodup) (hco : ∀ n ∈ q, n = .co n.owner) : Mvs j s (handoff s m q) := by
  induction q generalizing s with
  | nil => exact .refl _
  | cons n q ih =>
    have hn := (List.nodup_cons.mp hnd).1
    have hcn := hco n List.mem_cons_self
    have hown : (Node.co n.owner).owner = n.owner := rfl
    generalize n.owner = r at *
    subst hcn
    -- one grant
    have key : ∀ (u : S) (rd : Bool), u.co = s.co → u.lists = (schedResume (setList s (.muQ m) q) r).lists → u.sco = s.sco → u.dlq = s.dlq → u.evw = s.evw →
        u.jobs = s.jobs → u.log = .grant m r rd :: s.log → u.clock = s.clock → (s.co r).rlocked = rd → Mvs j s u := by
      intro u rd h1 h2 h3 h4 h5 h6 h7 h8 h9
      by_cases e : j = r
      · subst e
        refine .one (.grant m rd (by rw [hq]; simp) h9 ⟨by rw [h1]; rfl, ?_, by simp [h3], by simp [h4], by simp [h5], by simp [h6],
          by simp [lg, h7, Ev.about], by simp [h8]⟩)
        intro x K ho
        rw [h2, mem_sched, setList_lists]
        by_cases hK : K = .muQ m
        · subst hK
          simp only [if_true, hq, List.mem_cons]
          constructor
          · rintro (hx | hx)
            · exact .inl ⟨.inr hx.1, hx.2⟩
            · simp at hx
          · rintro (⟨hx | hx, hg⟩ | hx)
            · exact absurd hx hg
            · exact .inl ⟨hx, hg⟩
            · simp at hx
        · simp only [hK, if_false]
          constructor
          · rintro (hx | hx)
            · exact .inl hx
            · exact .inr ⟨by trivial, hx.2, hx.1⟩
          · rintro (hx | hx)
            · exact .inl hx
            · exact .inr ⟨hx.2.2, hx.2.1⟩
      · refine .same (by rw [h1]) ?_ (by rw [h3]) (by rw [h4]) (by simp [h5]) (by rw [h6]) (by simp [lg, h7, Ev.about, Ne.symm e]) (by rw [h8]; exact Int.le_refl _)
        intro x K ho
        have := owner_ne ho e
        rw [h2, mem_sched, setList_lists]
        by_cases hK : K = .muQ m
        · subst hK; simp [hq, this]
        · simp [hK, this]
    simp only [Rt.handoff]
    split
    · rename_i hr
      have hr' : (s.co r).rlocked = true := hr
      have hk := key (note (setMu (schedResume (setList s (.muQ m) q) r) m { (schedResume (setList s (.muQ m) q) r).mu m with rlocked := ((schedResume (setList s (.muQ m) q) r).mu m).rlocked + 1 }) (.grant m r true)) true
        rfl rfl rfl rfl rfl rfl rfl rfl hr'
      cases q with
      | nil => exact hk
      | cons n' q' =>
        dsimp only
        split
        · refine hk.trans (ih ?_ (List.nodup_cons.mp hnd).2 (fun x hx => hco x (List.mem_cons_of_mem _ hx)))
          intro x
          show x ∈ (schedResume (setList s (.muQ m) (n' :: q')) r).lists (.muQ m) ↔ _
          rw [mem_sched, setList_lists, if_pos rfl]
          constructor
          · rintro (hx | hx)
            · exact hx.1
            · simp at hx
          · intro hx; exact .inl ⟨hx, fun e => hn (e ▸ hx)⟩
        · exact hk
    · rename_i hr
      have hr' : ¬ (s.co r).rlocked = true := hr
      exact key _ false rfl rfl rfl rfl rfl rfl rfl rfl (by simpa using hr')

/-! ## Operations of the running coroutine on itself -/

section self
variable {i j : Nat} (hj : j ≠ i) (s : S)
include hj

theorem upd_mvs (f : Co → Co) : Mvs j s (upd s i f) := .eqs (by rw [upd_co, if_neg hj]) rfl rfl rfl rfl rfl rfl rfl
theorem setPc_mvs (p : Pc) : Mvs j s (setPc s i p) := upd_mvs hj s _
theorem retv_mvs (v : Int) : Mvs j s (retv s i v) := setPc_mvs hj s _
theorem dlClear_mvs : Mvs j s (dlClear s i) := upd_mvs hj s _
theorem coyield_mvs (n : Nat) (a : Aft) : Mvs j s (coyield s i n a) :=
  .eqs (by rw [coyield_co, if_neg hj]) rfl (by simp [coyield]) rfl rfl rfl rfl rfl
theorem yfsr_mvs (n : Nat) (a : Aft) : Mvs j s (yfsr s i n a) := coyield_mvs hj s _ _
theorem push_mvs (L : LName) : Mvs j s (push s L (.co i)) :=
  .same rfl (fun n K ho => by rw [mem_push]; simp [owner_ne ho hj]) Iff.rfl Iff.rfl (fun _ _ => Iff.rfl) rfl rfl (Int.le_refl _)
theorem rm_mvs : Mvs j s (rm s (.co i)) :=
  .same rfl (fun n K ho => by rw [mem_rm]; simp [owner_ne ho hj]) Iff.rfl Iff.rfl (fun _ _ => Iff.rfl) rfl rfl (Int.le_refl _)
theorem selRm_mvs : Mvs j s (selRm s i) :=
  .same rfl (fun n K ho => by
    simp only [selRm, List.mem_filter]
    cases n with
    | co r => simp
    | case r k => have : r = j := ho; subst this; simp [hj]) Iff.rfl Iff.rfl (fun _ _ => Iff.rfl) rfl rfl (Int.le_refl _)
theorem copause_mvs (hc : s.sco.cur = some i) (dl : Int) (b : Blk) : Mvs j s (copause s i dl b) := by
  unfold copause
  split
  · exact setPc_mvs hj s _
  · refine .same (by simp [upd_co, hj]) (fun _ _ _ => Iff.rfl) (by simpa using mem_pause hc hj) ?_ (fun _ _ => Iff.rfl) rfl rfl (Int.le_refl _)
    dsimp only; split
    · rw [mem_dlInsert]; simp [hj]
    · simp
theorem unpause_mvs : Mvs j s (unpause s i) := by
  unfold unpause
  split
  · exact .same (by simp [upd_co, hj]) (fun _ _ _ => Iff.rfl) Iff.rfl (by simp [hj]) (fun _ _ => Iff.rfl) rfl rfl (Int.le_refl _)
  · exact .refl _
omit hj in
theorem note_mvs {e : Ev} (he : e.about j = false) : Mvs j s (note s e) :=
  .same rfl (fun _ _ _ => Iff.rfl) Iff.rfl Iff.rfl (fun _ _ => Iff.rfl) rfl (by simp [he]) (Int.le_refl _)
omit hj in
theorem setChan_mvs (c : Nat) (ch : Chan) : Mvs j s (setChan s c ch) := .eqs rfl rfl rfl rfl rfl rfl rfl rfl
omit hj in
theorem setMu_mvs (c : Nat) (ch : Mu) : Mvs j s (setMu s c ch) := .eqs rfl rfl rfl rfl rfl rfl rfl rfl
omit hj in
theorem chanRelease_mvs (c : Nat) : Mvs j s (chanRelease s c) := by
  unfold chanRelease; (repeat' split) <;> exact .eqs rfl rfl rfl rfl rfl rfl rfl rfl
omit hj in
theorem fault_mvs : Mvs j s { s with fault := true } := .eqs rfl rfl rfl rfl rfl rfl rfl rfl

theorem selPush_mvs (k : Nat) (cs : List Nat) : Mvs j s (selPush s i k cs) := by
  induction cs generalizing s k with
  | nil => exact .refl _
  | cons c cs ih =>
    simp only [selPush]
    refine .trans ?_ (ih _ _)
    refine .same rfl (fun n K ho => ?_) Iff.rfl Iff.rfl (fun _ _ => Iff.rfl) rfl rfl (Int.le_refl _)
    dsimp only
    rw [mem_push]
    have : n ≠ .case i k := owner_ne' ho hj
    simp [this]

/-! ## Channels -/

omit hj in
theorem RQ.of {c : Nat} {ch : Chan} (hL : InvL s) (hQ : QOk s c) (hc : s.chan c = some ch) (hr : ch.qrecv = true) (j : Nat) :
    RQ j c s (s.lists (.chanQ c)) := by
  have ho := hQ.2 ch hc
  refine ⟨hL.nd _, ?_, ?_, ?_⟩
  · intro hn
    have h1 := ho.rcv hr _ hn
    have h2 := hL.pl _ _ hn
    simp only [place, Node.owner] at h1 h2
    rcases h2 with h2 | h2
    · exact absurd h2.1 h1
    · exact h2
  · intro k hn
    have h2 := hL.pl _ _ hn
    simpa [place, Node.owner] using h2
  · intro n hn _ K hK hn'
    exact hK (hL.dj _ _ n hn' hn)

omit hj in
theorem setList_self (L : LName) : setList s L (s.lists L) = s := by
  unfold setList
  have : (fun K => if K = L then s.lists L else s.lists K) = s.lists := by
    funext K; split
    · subst_vars; rfl
    · rfl
  rw [this]

omit hj in
theorem RQ.congr {c : Nat} {q : List Node} {s t : S} (h : RQ j c s q) (hc : t.co j = s.co j) (hl : t.lists = s.lists) : RQ j c t q :=
  ⟨h.nd, by rw [hc]; exact h.co, by rw [hc]; exact h.ca, by rw [hl]; exact h.dj⟩

theorem sendRest_mvs (hcur : s.sco.cur = some i) (c : Nat) (m : Msg) (dl : Int) (ch : Chan) : Mvs j s (sendRest s i c m dl ch) := by
  unfold sendRest
  split
  · exact (setChan_mvs s _ _).trans (retv_mvs hj _ _)
  · dsimp only
    refine .trans ?_ (copause_mvs hj _ ?_ dl .send)
    · exact .trans (push_mvs hj s (.chanQ c)) (.trans (setChan_mvs _ c { ch with qrecv := false }) (.trans (upd_mvs hj _ (fun k => { k with smsg := m })) (.eqs rfl rfl rfl rfl rfl rfl rfl rfl)))
    · exact hcur

theorem chanSend_mvs (hcur : s.sco.cur = some i) (hL : InvL s) (c : Nat) (hQ : QOk s c) (m : Msg) (dl : Int) : Mvs j s (chanSend s i c m dl) := by
  unfold chanSend
  split
  · exact fault_mvs s
  rename_i ch hch
  split
  · exact retv_mvs hj _ _
  split
  · exact (upd_mvs hj s _).trans (retv_mvs hj _ _)
  dsimp only
  have h0 : Mvs j s (note s (.put c i m)) := note_mvs s (by simp [Ev.about, Ne.symm hj])
  refine h0.trans ?_
  unfold sendTry
  by_cases hr : ch.qrecv = true
  · rw [if_pos hr]
    have hrq : RQ j c (note s (.put c i m)) ((note s (.put c i m)).lists (.chanQ c)) := (RQ.of s hL hQ hch hr j).congr rfl rfl
    have := Mvs.sendLoop (m := m) hrq
    rw [setList_self] at this
    split
    · rename_i r e; rw [e] at this; exact this.trans (retv_mvs hj _ _)
    · rename_i e; rw [e] at this; exact this.trans (sendRest_mvs hj _ (by rw [sendLoop_none _ _ _ _ e]; exact hcur) _ _ _ _)
  · rw [if_neg hr]; exact sendRest_mvs hj (note s (.put c i m)) hcur _ _ _ _

theorem chanBcast_mvs (hL : InvL s) (c : Nat) (hQ : QOk s c) (m : Msg) : Mvs j s (chanBcast s i c m) := by
  unfold chanBcast
  split
  · exact fault_mvs s
  rename_i ch hch
  split
  · exact retv_mvs hj _ _
  dsimp only
  unfold bcastTry
  by_cases hr : ch.qrecv = true
  · rw [if_pos hr]
    have := Mvs.bcastLoop (m := m) (RQ.of s hL hQ hch hr j)
    rw [setList_self] at this
    exact this.trans (yfsr_mvs hj _ _ _)
  · rw [if_neg hr]; exact yfsr_mvs hj _ _ _

theorem recvNow_mvs (hL : InvL s) {c : Nat} (hQ : QOk s c) {ch : Chan} (hch : s.chan c = some ch) {m : Msg} {o : Option Nat} {t : S}
    (h : recvNow s c i ch = some (m, o, t)) : Mvs j s (resumeOpt t o) := by
  have hpop : ∀ (k : Nat) (q : List Node) (ch' : Chan) (m : Msg), ch.qrecv = false → s.lists (.chanQ c) = .co k :: q →
      Mvs j s (resumeOpt (note (setChan (setList s (.chanQ c) q) c ch') (.take c i m)) (some k)) := by
    intro k q ch' m hr hq
    have hs := (hQ.2 ch hch).snd hr (.co k) (by rw [hq]; simp)
    have hp := hL.pl (.chanQ c) (.co k) (by rw [hq]; simp)
    have hnd := hL.nd (.chanQ c)
    rw [hq] at hnd
    by_cases e : j = k
    · subst e
      simp only [Node.owner] at hs hp
      refine .one (.sent c (by rw [hq]; simp) hs ?_ ⟨rfl, ?_, by simp [resumeOpt, scoResume, mem_resume, setChan, setList], by simp [resumeOpt, scoResume, setChan, setList],
        by simp [resumeOpt, scoResume, setChan, setList], by simp [resumeOpt, scoResume, setChan, setList], by simp [resumeOpt, scoResume, setChan, setList, note, lg, Ev.about, Ne.symm hj], by simp [resumeOpt, scoResume, setChan, setList]⟩)
      · simp only [place] at hp
        rcases hp with hp | hp
        · exact hp.2
        · rw [hs] at hp; simp at hp
      · intro x K ho
        show x ∈ (setList s (.chanQ c) q).lists K ↔ _
        rw [setList_lists]
        by_cases hK : K = .chanQ c
        · subst hK
          rw [if_pos rfl, hq]
          simp only [List.mem_cons]
          constructor
          · intro hx; exact .inl ⟨.inr hx, fun e => (List.nodup_cons.mp hnd).1 (e ▸ hx)⟩
          · rintro (⟨hx | hx, hg⟩ | hx)
            · exact absurd hx hg
            · exact hx
            · simp at hx
        · rw [if_neg hK]
          constructor
          · intro hx; exact .inl ⟨hx, fun e => hK (hL.dj _ _ _ (e ▸ hx) (by rw [hq]; simp))⟩
          · rintro (hx | hx)
            · exact hx.1
            · simp at hx
    · refine .same rfl ?_ (by simp [resumeOpt, scoResume, mem_resume, setChan, setList, e]) Iff.rfl (fun _ _ => Iff.rfl) rfl (by simp [resumeOpt, scoResume, setChan, setList, note, lg, Ev.about, Ne.symm hj]) (Int.le_refl _)
      intro x K ho
      show x ∈ (setList s (.chanQ c) q).lists K ↔ _
      rw [setList_lists]
      split
      · rename_i hK; subst hK; rw [hq]; simp [owner_ne ‹_› e]
      · rfl
  have hnote : ∀ (ch' : Chan) (m : Msg), Mvs j s (resumeOpt (note (setChan s c ch') (.take c i m)) none) := fun ch' m =>
    (setChan_mvs s c ch').trans (note_mvs _ (by simp [Ev.about, Ne.symm hj]))
  have ho := hQ.2 ch hch
  unfold recvNow at h
  split at h
  · rename_i m0 buf hb
    split at h
    · cases h; exact hnote _ _
    · rename_i k q hq
      cases h
      have hr : ch.qrecv = false := by
        cases hr : ch.qrecv with
        | false => rfl
        | true => have := ho.emp hr (by rw [hq]; simp); rw [hb] at this; simp at this
      exact hpop _ _ _ _ hr hq
    · cases h; exact fault_mvs s
  · split at h
    · cases h
    · rename_i n q hq
      split at h
      · cases h
      · rename_i hr
        cases n with
        | co k => cases h; exact hpop _ _ _ _ (by simpa using hr) hq
        | case a b => cases h; exact fault_mvs s

omit hj in
theorem resumeOpt_comm (t : S) (f : Co → Co) (o : Option Nat) : resumeOpt (upd t i f) o = upd (resumeOpt t o) i f := by
  cases o <;> rfl

theorem chanRecv_mvs (hcur : s.sco.cur = some i) (hL : InvL s) (c : Nat) (hQ : QOk s c) (tr : Bool) (dl : Int) : Mvs j s (chanRecv s i c tr dl) := by
  unfold chanRecv
  split
  · exact fault_mvs s
  rename_i ch hch
  split
  · exact retv_mvs hj _ _
  split
  · exact (upd_mvs hj s _).trans (retv_mvs hj _ _)
  split
  · rename_i m o t he
    unfold retv setPc
    rw [resumeOpt_comm, resumeOpt_comm]
    exact (recvNow_mvs hj s hL hQ hch he).trans ((upd_mvs hj _ _).trans (upd_mvs hj _ _))
  · split
    · exact retv_mvs hj _ _
    · dsimp only
      refine .trans ?_ (copause_mvs hj _ ?_ dl .recv)
      · exact .trans (push_mvs hj s (.chanQ c)) (.trans (setChan_mvs _ c { ch with qrecv := true }) (.trans (upd_mvs hj _ (fun k => { k with cclosed := false })) (.eqs rfl rfl rfl rfl rfl rfl rfl rfl)))
      · exact hcur

theorem chanClose1_mvs (hL : InvL s) (c : Nat) (hQ : QOk s c) {ch : Chan} (hch : s.chan c = some ch) (a : Aft) :
    Mvs j s (chanClose1 s i c ch a) := by
  unfold chanClose1
  dsimp only
  split
  · exact (setChan_mvs s _ _).trans (setPc_mvs hj _ _)
  · rename_i hcond
    have hrq : RQ j c s (s.lists (.chanQ c)) := by
      by_cases hr : ch.qrecv = true
      · exact RQ.of s hL hQ hch hr j
      · have : s.lists (.chanQ c) = [] := by
          apply Classical.byContradiction; intro h'; exact hcond (.inr ⟨h', by simpa using hr⟩)
        rw [this]
        exact ⟨List.nodup_nil, by simp, by simp, by simp⟩
    have hrq' : RQ j c (setChan s c { ch with sclosed := true }) ((setChan s c { ch with sclosed := true }).lists (.chanQ c)) := hrq.congr rfl rfl
    have := Mvs.closeLoop hrq'
    rw [setList_self] at this
    refine .trans ?_ (yfsr_mvs hj _ _ _)
    exact (setChan_mvs s _ _).trans (this.trans (.eqs rfl rfl rfl rfl rfl rfl rfl rfl))

theorem chanClose_mvs (hL : InvL s) (c : Nat) (hQ : QOk s c) : Mvs j s (chanClose s i c) := by
  unfold chanClose
  split
  · exact fault_mvs s
  split
  · exact retv_mvs hj _ _
  · rename_i hch _; exact chanClose1_mvs hj s hL c hQ hch _

theorem chanSelect_mvs (hcur : s.sco.cur = some i) (hL : InvL s) (hQ : ∀ c, QOk s c) (cs : List Nat) (tr : Bool) (dl : Int) :
    Mvs j s (chanSelect s i cs dl tr) := by
  unfold chanSelect
  split
  · exact fault_mvs s
  split
  · exact (upd_mvs hj s _).trans (retv_mvs hj _ _)
  split
  · rename_i k c _
    split
    · exact fault_mvs s
    rename_i ch hch
    split
    · exact setPc_mvs hj _ _
    split
    · rename_i m o t he
      dsimp only
      unfold setPc
      rw [resumeOpt_comm]
      refine (recvNow_mvs hj s hL (hQ c) hch he).trans (.trans ?_ (upd_mvs hj _ _))
      cases o <;> exact .eqs rfl rfl rfl rfl rfl rfl rfl rfl
    · exact fault_mvs s
  · split
    · exact retv_mvs hj _ _
    · dsimp only
      refine .trans ?_ (copause_mvs hj _ ?_ dl .sel)
      · exact .trans (upd_mvs hj s (fun k => { k with retIdx := -1 })) (.trans (selPush_mvs hj _ 0 cs) (.eqs rfl rfl rfl rfl rfl rfl rfl rfl))
      · simpa using hcur

theorem chanCase_mvs (c : Nat) : Mvs j s (chanCase s i c) := by
  unfold chanCase
  (repeat' split)
  · exact fault_mvs s
  · exact (upd_mvs hj s _).trans (retv_mvs hj _ _)
  · exact retv_mvs hj _ _

/-! ## The rest -/

theorem finishLock_mvs (hcur : s.sco.cur = some i) (m : Nat) (rd : Bool) (dl : Int) (b : Blk) : Mvs j s (finishLock s i m rd dl b) := by
  unfold finishLock; dsimp only
  refine .trans ?_ (copause_mvs hj _ ?_ dl b)
  · exact .trans (upd_mvs hj s (fun k => { k with rlocked := rd })) (.trans (push_mvs hj _ (.muQ m)) (.eqs rfl rfl rfl rfl rfl rfl rfl rfl))
  · exact hcur

theorem grantNow_mvs (m : Nat) (x : Mu) (rd : Bool) (v : Int) : Mvs j s (retv (note (setMu s m x) (.grant m i rd)) i v) :=
  (setMu_mvs s m x).trans ((note_mvs _ (by simp [Ev.about, Ne.symm hj])).trans (retv_mvs hj _ _))

theorem muLock_mvs (hcur : s.sco.cur = some i) (m : Nat) (dl : Int) : Mvs j s (muLock s i m dl) := by
  unfold muLock
  split
  · exact (dlClear_mvs hj s).trans (retv_mvs hj _ _)
  · dsimp only; split
    · exact (dlClear_mvs hj s).trans (finishLock_mvs hj (dlClear s i) hcur _ _ _ _)
    · exact (dlClear_mvs hj s).trans (grantNow_mvs hj _ _ _ _ _)

theorem muRdlock_mvs (hcur : s.sco.cur = some i) (m : Nat) (dl : Int) : Mvs j s (muRdlock s i m dl) := by
  unfold muRdlock
  split
  · exact (dlClear_mvs hj s).trans (retv_mvs hj _ _)
  · dsimp only; split
    · exact (dlClear_mvs hj s).trans (finishLock_mvs hj (dlClear s i) hcur _ _ _ _)
    · exact (dlClear_mvs hj s).trans (grantNow_mvs hj _ _ _ _ _)

theorem muTrylock_mvs (m : Nat) : Mvs j s (muTrylock s i m) := by
  unfold muTrylock; split
  · exact retv_mvs hj _ _
  · exact grantNow_mvs hj _ _ _ _ _
theorem muTryrdlock_mvs (m : Nat) : Mvs j s (muTryrdlock s i m) := by
  unfold muTryrdlock; split
  · exact retv_mvs hj _ _
  · exact grantNow_mvs hj _ _ _ _ _

omit hj in
theorem fastUnlock_mvs (hL : InvL s) (m : Nat) : Mvs j s (fastUnlock s m) := by
  unfold fastUnlock; dsimp only
  (repeat' split)
  · exact .refl _
  · exact setMu_mvs _ _ _
  · exact setMu_mvs _ _ _
  · exact (setMu_mvs s _ _).trans (Mvs.handoff (fun _ => Iff.rfl) (hL.nd _) (fun n hn => hL.muQ_co hn))

omit hj in
theorem InvL.note {s : S} (h : InvL s) (e : Ev) : InvL (Rt.note s e) := h.congr rfl (fun _ => rfl) (Nat.le_refl _) rfl

theorem muUnlock_mvs (hL : InvL s) (m : Nat) : Mvs j s (muUnlock s i m) := by
  have h0 : Mvs j s (note s (.release m i)) := note_mvs s (by simp [Ev.about, Ne.symm hj])
  unfold muUnlock; split
  · exact h0.trans ((fastUnlock_mvs _ (hL.note _) m).trans (yfsr_mvs hj _ _ _))
  · exact h0.trans ((fastUnlock_mvs _ (hL.note _) m).trans (coyield_mvs hj _ _ _))

theorem wgAdd_mvs (w : Nat) (d : Int) : Mvs j s (wgAdd s i w d) := by
  unfold wgAdd; dsimp only
  (repeat' split)
  · exact fault_mvs s
  · exact retv_mvs hj _ _
  · refine .trans ?_ (retv_mvs hj _ _); exact .eqs rfl rfl rfl rfl rfl rfl rfl rfl

omit hj in
theorem InvL.listCo {s : S} (h : InvL s) {L : LName} (hL : ∀ c, L ≠ .chanQ c) {n : Node} (hn : n ∈ s.lists L) : n = .co n.owner := by
  have := h.pl _ _ hn
  cases n with
  | co r => rfl
  | case r k => cases L <;> first | exact absurd rfl (hL _) | exact this.elim

omit hj in
theorem schedAll_mvs (hL : InvL s) {L : LName} (hK : (∃ w, L = .wgQ w) ∨ (∃ v, L = .cvQ v) ∨ (∃ t, L = .joinQ t) ∨ (∃ t, L = .cancelQ t)) :
    Mvs j s (schedAll (setList s L []) L (s.lists L)) := by
  have h1 : L ≠ .resumers := by rcases hK with ⟨_, rfl⟩ | ⟨_, rfl⟩ | ⟨_, rfl⟩ | ⟨_, rfl⟩ <;> simp
  have h2 : ∀ c, L ≠ .chanQ c := by rcases hK with ⟨_, rfl⟩ | ⟨_, rfl⟩ | ⟨_, rfl⟩ | ⟨_, rfl⟩ <;> simp
  have := Mvs.schedAll (j := j) (s := setList s L []) (q := s.lists L) (by simp [setList_lists]) h1 hK (hL.nd L) (fun n hn => hL.listCo h2 hn)
  refine .trans ?_ this
  refine .same rfl (fun n K _ => ?_) Iff.rfl Iff.rfl (fun _ _ => Iff.rfl) rfl rfl (Int.le_refl _)
  simp only [setList_lists]; split
  · subst_vars; rfl
  · rfl

/-- one waiter is woken at once -/
theorem wakeNow_mvs (hL : InvL s) {L : LName} (hK : (∃ w, L = .wgQ w) ∨ (∃ v, L = .cvQ v) ∨ (∃ t, L = .joinQ t) ∨ (∃ t, L = .cancelQ t))
    {n : Node} {q : List Node} (hq : s.lists L = n :: q) :
    Mvs j s (scoResume (retv (note (setList s L q) (.wake L n.owner)) i OK) n.owner) := by
  have h2 : ∀ c, L ≠ .chanQ c := by rcases hK with ⟨_, rfl⟩ | ⟨_, rfl⟩ | ⟨_, rfl⟩ | ⟨_, rfl⟩ <;> simp
  have hcn := hL.listCo h2 (n := n) (by rw [hq]; simp)
  have hnd := hL.nd L
  rw [hq] at hnd
  generalize n.owner = r at *
  subst hcn
  by_cases e : j = r
  · subst e
    refine .one (.wake L true (by rw [hq]; simp) hK ⟨by simp [scoResume, retv_co, hj, setList], ?_, by simp [scoResume, mem_resume, setList], by simp [scoResume, setList], by simp [scoResume, setList], by simp [scoResume, setList],
      by simp [lg, scoResume, setList, note, Ev.about, retv, setPc, upd], by simp [scoResume, setList]⟩)
    intro x K ho
    show x ∈ (setList s L q).lists K ↔ _
    rw [setList_lists]
    by_cases hK : K = L
    · subst hK
      rw [if_pos rfl, hq]
      simp only [List.mem_cons]
      constructor
      · intro hx; exact .inl ⟨.inr hx, fun e => (List.nodup_cons.mp hnd).1 (e ▸ hx)⟩
      · rintro (⟨hx | hx, hg⟩ | hx)
        · exact absurd hx hg
        · exact hx
        · simp at hx
    · rw [if_neg hK]
      constructor
      · intro hx; exact .inl ⟨hx, fun e => hK (hL.dj _ _ _ (e ▸ hx) (by rw [hq]; simp))⟩
      · rintro (hx | hx)
        · exact hx.1
        · simp at hx
  · refine .same (by simp [scoResume, retv_co, hj, setList]) ?_ (by simp [scoResume, mem_resume, setList, e]) (by simp [scoResume, setList]) (by simp [scoResume, setList]) (by simp [scoResume, setList])
      (by simp [lg, scoResume, setList, note, Ev.about, retv, setPc, upd, Ne.symm e]) (by simp [scoResume, setList])
    intro x K ho
    show x ∈ (setList s L q).lists K ↔ _
    rw [setList_lists]
    split
    · rename_i hK; subst hK; rw [hq]; simp [owner_ne ho e]
    · rfl

theorem wgDone_mvs (hL : InvL s) (w : Nat) : Mvs j s (wgDone s i w) := by
  unfold wgDone; dsimp only
  have h0 : Mvs j s (setWg s w (s.wg w - 1)) := .eqs rfl rfl rfl rfl rfl rfl rfl rfl
  have hL0 : InvL (setWg s w (s.wg w - 1)) := hL.congr rfl (fun _ => rfl) (Nat.le_refl _) rfl
  split
  · exact retv_mvs hj _ _
  split
  · split
    · exact h0.trans (retv_mvs hj _ _)
    · rename_i n hq; exact h0.trans (wakeNow_mvs hj _ hL0 (.inl ⟨w, rfl⟩) hq)
    · exact h0.trans ((schedAll_mvs _ hL0 (.inl ⟨w, rfl⟩)).trans (yfsr_mvs hj _ _ _))
  · exact h0.trans (retv_mvs hj _ _)

theorem wgWait_mvs (hcur : s.sco.cur = some i) (w : Nat) (dl : Int) : Mvs j s (wgWait s i w dl) := by
  unfold wgWait
  split
  · exact (dlClear_mvs hj s).trans (retv_mvs hj _ _)
  · dsimp only; split
    · exact (dlClear_mvs hj s).trans ((note_mvs _ (by simp [Ev.about, Ne.symm hj])).trans (coyield_mvs hj _ _ _))
    · refine .trans ?_ (copause_mvs hj _ ?_ dl .wg)
      · exact (dlClear_mvs hj s).trans (.trans (push_mvs hj _ (.wgQ w)) (.eqs rfl rfl rfl rfl rfl rfl rfl rfl))
      · exact hcur

theorem cvSignal_mvs (hL : InvL s) (v : Nat) : Mvs j s (cvSignal s i v) := by
  unfold cvSignal; split
  · exact retv_mvs hj _ _
  · rename_i n q hq; exact wakeNow_mvs hj _ hL (.inr (.inl ⟨v, rfl⟩)) hq

theorem cvBcast_mvs (hL : InvL s) (v : Nat) : Mvs j s (cvBcast s i v) := by
  unfold cvBcast
  exact (schedAll_mvs _ hL (.inr (.inl ⟨v, rfl⟩))).trans (yfsr_mvs hj _ _ _)

theorem cvEnq_mvs (hcur : s.sco.cur = some i) (v : Nat) (dl : Int) : Mvs j s (cvEnq s i v dl) := by
  unfold cvEnq; dsimp only
  refine .trans ?_ (copause_mvs hj _ ?_ dl .cond)
  · exact (push_mvs hj _ (.cvQ v)).trans (.eqs rfl rfl rfl rfl rfl rfl rfl rfl)
  · exact hcur

omit hj in
theorem fastUnlock_sco' (s : S) (m : Nat) : (fastUnlock s m).sco = s.sco := by
  simp

theorem cvWait_mvs (hcur : s.sco.cur = some i) (hL : InvL s) (v m : Nat) (dl : Int) : Mvs j s (cvWait s i v m dl) := by
  have h0 : Mvs j s (note s (.release m i)) := note_mvs s (by simp [Ev.about, Ne.symm hj])
  unfold cvWait; split
  · exact (upd_mvs hj s _).trans (retv_mvs hj _ _)
  split
  · exact h0.trans ((fastUnlock_mvs _ (hL.note _) m).trans (yfsr_mvs hj _ _ _))
  · refine h0.trans ((fastUnlock_mvs _ (hL.note _) m).trans (cvEnq_mvs hj _ ?_ _ _))
    rw [fastUnlock_sco']; exact hcur

theorem doJoin_mvs (hcur : s.sco.cur = some i) (id : Nat) (dl : Int) : Mvs j s (doJoin s i id dl) := by
  unfold doJoin; dsimp only
  (repeat' split)
  · exact (note_mvs _ (by simp [Ev.about, Ne.symm hj])).trans (retv_mvs hj _ _)
  · exact (dlClear_mvs hj s).trans (retv_mvs hj _ _)
  · exact (dlClear_mvs hj s).trans (retv_mvs hj _ _)
  · refine (dlClear_mvs hj s).trans (.trans (push_mvs hj _ (.joinQ id)) (copause_mvs hj _ ?_ dl .join))
    exact hcur

theorem doResume_mvs (id : Nat) : Mvs j s (doResume s i id) := by
  unfold doResume
  (repeat' split)
  · exact retv_mvs hj _ _
  · exact retv_mvs hj _ _
  · rename_i hs
    by_cases e : j = id
    · subst e
      refine .one (.resumed i (by simpa using hs) ⟨by simp [scoResume, retv_co, hj], fun n L _ => by simp [scoResume], by simp [scoResume, mem_resume], by simp [scoResume], by simp [scoResume], by simp [scoResume],
        by simp [lg, scoResume, note, Ev.about, retv, setPc, upd], by simp [scoResume]⟩)
    · exact .same (by simp [scoResume, retv_co, hj]) (fun n L _ => by simp [scoResume]) (by simp [scoResume, mem_resume, e]) (by simp [scoResume]) (by simp [scoResume]) (by simp [scoResume])
        (by simp [lg, scoResume, note, Ev.about, retv, setPc, upd, Ne.symm e, Ne.symm hj]) (by simp [scoResume])

theorem doCancel_mvs (hcur : s.sco.cur = some i) (id : Nat) (dl : Int) : Mvs j s (doCancel s i id dl) := by
  unfold doCancel; dsimp only
  (repeat' split)
  · exact retv_mvs hj _ _
  · exact (dlClear_mvs hj s).trans (retv_mvs hj _ _)
  · rename_i he
    refine (dlClear_mvs hj s).trans ?_
    generalize dlClear s i = s at *
    by_cases e : j = id
    · subst e
      refine .one (.canceled i he ⟨by simp [scoResume, setPc_co, upd_co, hj], fun n L _ => by simp [scoResume], by simp [scoResume, mem_resume], by simp [scoResume], by simp [scoResume], by simp [scoResume],
        by simp [lg, scoResume, note, Ev.about, setPc, upd], by simp [scoResume]⟩)
    · exact .same (by simp [scoResume, setPc_co, upd_co, hj, e]) (fun n L _ => by simp [scoResume]) (by simp [scoResume, mem_resume, e]) (by simp [scoResume]) (by simp [scoResume]) (by simp [scoResume])
        (by simp [lg, scoResume, note, Ev.about, setPc, upd, Ne.symm e, Ne.symm hj]) (by simp [scoResume])
  · refine (dlClear_mvs hj s).trans (.trans (push_mvs hj _ (.cancelQ id)) (copause_mvs hj _ ?_ dl .cancel))
    exact hcur

theorem doStart_mvs (hn : j ≠ s.sco.nextId + 1) (g : Option Nat) : Mvs j s (doStart s i g) := by
  unfold doStart; dsimp only
  have : j ≠ s.sco.nextId + 1 := by omega
  exact .same (by simp [upd_co, this, hj]) (fun n L _ => Iff.rfl) (by simp) Iff.rfl (fun _ _ => Iff.rfl) rfl (by simp [lg, Ev.about, Ne.symm this, Ne.symm hj]) (Int.le_refl _)

theorem doCall_mvs (hcur : s.sco.cur = some i) (hL : InvL s) (hQ : ∀ c, QOk s c) (c : Call) (hn : c = .start ∨ c = .genStart → j ≠ s.sco.nextId + 1) : Mvs j s (doCall s i c) := by
  cases c <;> simp only [doCall]
  case none => exact .refl _
  case start => exact doStart_mvs hj s (hn (.inl rfl)) _
  case genStart =>
    unfold doGenStart; dsimp only
    refine .trans ?_ (doStart_mvs hj _ ?_ _)
    · exact .eqs rfl rfl rfl rfl rfl rfl rfl rfl
    · exact hn (.inr rfl)
  case yield => exact coyield_mvs hj _ _ _
  case sleep dl =>
    unfold doSleep; split
    · exact retv_mvs hj _ _
    · refine .trans ?_ (copause_mvs hj _ ?_ _ _)
      · exact .eqs rfl rfl rfl rfl rfl rfl rfl rfl
      · exact hcur
  case join => exact doJoin_mvs hj s hcur _ _
  case suspend dl =>
    unfold doSuspend; dsimp only
    refine .trans ?_ (copause_mvs hj _ ?_ _ _)
    · exact .trans (upd_mvs hj s (fun k => { k with suspended := true })) (.eqs rfl rfl rfl rfl rfl rfl rfl rfl)
    · exact hcur
  case resume => exact doResume_mvs hj s _
  case exit => exact setPc_mvs hj s _
  case getid => exact retv_mvs hj s _
  case lastid => exact retv_mvs hj s _
  case starterid => exact retv_mvs hj s _
  case stats => exact (note_mvs s (by simp [Ev.about, Ne.symm hj])).trans (retv_mvs hj _ _)
  case chMake => refine .trans ?_ (retv_mvs hj _ _); exact .eqs rfl rfl rfl rfl rfl rfl rfl rfl
  case chRetain =>
    split
    · exact fault_mvs s
    · exact (setChan_mvs s _ _).trans (retv_mvs hj _ _)
  case chRelease => exact (chanRelease_mvs s _).trans (retv_mvs hj _ _)
  case send => exact chanSend_mvs hj s hcur hL _ (hQ _) _ _
  case bcast => exact chanBcast_mvs hj s hL _ (hQ _) _
  case recv => exact chanRecv_mvs hj s hcur hL _ (hQ _) _ _
  case tryrecv => exact chanRecv_mvs hj s hcur hL _ (hQ _) _ _
  case close => exact chanClose_mvs hj s hL _ (hQ _)
  case select => exact chanSelect_mvs hj s hcur hL hQ _ _ _
  case tryselect => exact chanSelect_mvs hj s hcur hL hQ _ _ _
  case chCase => exact chanCase_mvs hj s _
  case genYield =>
    unfold doGenYield; split
    · exact retv_mvs hj s _
    · exact chanSend_mvs hj s hcur hL _ (hQ _) _ _
  case lock => exact muLock_mvs hj s hcur _ _
  case rdlock => exact muRdlock_mvs hj s hcur _ _
  case trylock => exact muTrylock_mvs hj s _
  case tryrdlock => exact muTryrdlock_mvs hj s _
  case unlock => exact muUnlock_mvs hj s hL _
  case wgAdd => exact wgAdd_mvs hj s _ _
  case wgDone => exact wgDone_mvs hj s hL _
  case wgWait => exact wgWait_mvs hj s hcur _ _
  case cvSignal => exact cvSignal_mvs hj s hL _
  case cvBcast => exact cvBcast_mvs hj s hL _
  case cvWait => exact cvWait_mvs hj s hcur hL _ _ _
  case cancel => exact setPc_mvs hj s _
  case setType => exact (upd_mvs hj s _).trans (retv_mvs hj _ _)
  case setState => exact (upd_mvs hj s _).trans (retv_mvs hj _ _)
  case cpush => exact (upd_mvs hj s _).trans (retv_mvs hj _ _)
  case cpop e =>
    unfold doCpop; split
    · exact fault_mvs s
    · dsimp only
      refine .trans ?_ (retv_mvs hj _ _)
      split
      · exact (upd_mvs hj s _).trans (note_mvs _ (by simp [Ev.about, Ne.symm hj]))
      · exact upd_mvs hj s _
  case sigWatch =>
    unfold doSigWatch; (repeat' split)
    · exact retv_mvs hj s _
    · exact retv_mvs hj s _
    · refine .trans ?_ (retv_mvs hj _ _); exact .eqs (by simp [upd_co, hj]) rfl rfl rfl rfl rfl rfl rfl
  case sigUnwatch =>
    unfold doSigUnwatch; (repeat' split)
    · exact retv_mvs hj s _
    · refine .trans ?_ (retv_mvs hj _ _); exact .eqs (by simp [upd_co, hj]) rfl rfl rfl rfl rfl rfl rfl
    · exact retv_mvs hj s _
  case sigWait dl =>
    unfold doSigWait; (repeat' split)
    · exact retv_mvs hj s _
    · exact (upd_mvs hj s _).trans (retv_mvs hj _ _)
    · dsimp only
      refine .trans ?_ (copause_mvs hj _ ?_ _ _)
      · exact (upd_mvs hj s _).trans (.trans (push_mvs hj _ .sigQ) (.eqs rfl rfl rfl rfl rfl rfl rfl rfl))
      · exact hcur
  case wait fd wr dl =>
    unfold doWait; dsimp only
    refine .trans ?_ (copause_mvs hj _ ?_ _ _)
    · exact .same rfl (fun _ _ _ => Iff.rfl) Iff.rfl Iff.rfl (fun f w => by simp [mem_evInsert, hj]) rfl rfl (Int.le_refl _)
    · exact hcur
  case work => refine .trans ?_ (setPc_mvs hj _ _); exact .eqs rfl rfl rfl rfl rfl rfl rfl rfl

end self
end Neco.Rt
