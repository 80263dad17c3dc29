import Verif.Proof.RtOth2
/-!
# What a step does to the coroutines that are not running
-/
namespace Neco.Rt
open Neco.Err

section self
variable {i j : Nat} (hj : j ≠ i) (s : S)
include hj

omit hj in
theorem cntr_mvs {s t : S} (h1 : t.co j = s.co j) (h2 : t.lists = s.lists) (h3 : t.sco = s.sco) (h4 : t.dlq = s.dlq) (h5 : t.evw = s.evw)
    (h6 : t.jobs = s.jobs) (h7 : t.log = s.log) (h8 : t.clock = s.clock) : Mvs j s t := .eqs h1 h2 (by rw [h3]) h4 h5 h6 h7 h8
omit hj in
theorem Mvs.pre {s t u : S} (g : Mvs j t u) (h1 : t.co j = s.co j) (h2 : t.lists = s.lists) (h3 : t.sco = s.sco) (h4 : t.dlq = s.dlq) (h5 : t.evw = s.evw)
    (h6 : t.jobs = s.jobs) (h7 : t.log = s.log) (h8 : t.clock = s.clock) : Mvs j s u := (cntr_mvs h1 h2 h3 h4 h5 h6 h7 h8).trans g

theorem afterBlk_mvs (b : Blk) : Mvs j s (afterBlk s i b) := by
  cases b <;> simp only [afterBlk]
  case sleep => exact .trans (Mvs.pre (dlClear_mvs hj { s with nsleepers := s.nsleepers - 1 }) rfl rfl rfl rfl rfl rfl rfl rfl) (retv_mvs hj _ _)
  case send => exact .trans (.trans (Mvs.pre (rm_mvs hj { s with nsenders := s.nsenders - 1 }) rfl rfl rfl rfl rfl rfl rfl rfl) (dlClear_mvs hj _)) (retv_mvs hj _ _)
  case recv =>
    have h0 : Mvs j s (rm { s with nreceivers := s.nreceivers - 1 } (.co i)) := Mvs.pre (rm_mvs hj { s with nreceivers := s.nreceivers - 1 }) rfl rfl rfl rfl rfl rfl rfl rfl
    split
    · exact (h0.trans (dlClear_mvs hj _)).trans (retv_mvs hj _ _)
    split
    · refine (((h0.trans ?_).trans (dlClear_mvs hj _)).trans (upd_mvs hj _ _)).trans (retv_mvs hj _ _)
      exact cntr_mvs rfl rfl rfl rfl rfl rfl rfl rfl
    · exact (h0.trans (dlClear_mvs hj _)).trans (retv_mvs hj _ _)
  case sel =>
    have h0 : Mvs j s (selRm { s with nreceivers := s.nreceivers - 1 } i) := Mvs.pre (selRm_mvs hj { s with nreceivers := s.nreceivers - 1 }) rfl rfl rfl rfl rfl rfl rfl rfl
    exact (h0.trans (dlClear_mvs hj _)).trans (retv_mvs hj _ _)
  case lock rd =>
    have h0 : Mvs j s (rm { s with nlocked := s.nlocked - 1 } (.co i)) := Mvs.pre (rm_mvs hj { s with nlocked := s.nlocked - 1 }) rfl rfl rfl rfl rfl rfl rfl rfl
    exact ((h0.trans (upd_mvs hj _ _)).trans (dlClear_mvs hj _)).trans (retv_mvs hj _ _)
  case relock =>
    have h0 : Mvs j s (upd (rm { s with nlocked := s.nlocked - 1 } (.co i)) i (fun k => { k with rlocked := false })) :=
      .trans (Mvs.pre (rm_mvs hj { s with nlocked := s.nlocked - 1 }) rfl rfl rfl rfl rfl rfl rfl rfl) (upd_mvs hj _ _)
    split
    · exact (h0.trans (dlClear_mvs hj _)).trans (retv_mvs hj _ _)
    split
    · exact ((h0.trans (dlClear_mvs hj _)).trans (note_mvs _ (by simp [Ev.about, Ne.symm hj]))).trans (setPc_mvs hj _ _)
    · exact (h0.trans (dlClear_mvs hj _)).trans (setPc_mvs hj _ _)
  case wg =>
    have h0 : Mvs j s (rm { s with nwaitgroupers := s.nwaitgroupers - 1 } (.co i)) := Mvs.pre (rm_mvs hj { s with nwaitgroupers := s.nwaitgroupers - 1 }) rfl rfl rfl rfl rfl rfl rfl rfl
    exact (h0.trans (dlClear_mvs hj _)).trans (retv_mvs hj _ _)
  case cond =>
    have h0 : Mvs j s (rm { s with ncondwaiters := s.ncondwaiters - 1 } (.co i)) := Mvs.pre (rm_mvs hj { s with ncondwaiters := s.ncondwaiters - 1 }) rfl rfl rfl rfl rfl rfl rfl rfl
    exact ((h0.trans (dlClear_mvs hj _)).trans (upd_mvs hj _ _)).trans (setPc_mvs hj _ _)
  case join => exact ((rm_mvs hj s).trans (dlClear_mvs hj _)).trans (retv_mvs hj _ _)
  case cancel => exact (rm_mvs hj s).trans (setPc_mvs hj _ _)
  case susp =>
    have h0 : Mvs j s (upd { s with nsuspended := s.nsuspended - 1 } i (fun k => { k with suspended := false })) :=
      Mvs.pre (upd_mvs hj { s with nsuspended := s.nsuspended - 1 } _) rfl rfl rfl rfl rfl rfl rfl rfl
    exact (h0.trans (dlClear_mvs hj _)).trans (retv_mvs hj _ _)
  case sig =>
    have h0 : Mvs j s (rm { s with nsigwaiters := s.nsigwaiters - 1 } (.co i)) := Mvs.pre (rm_mvs hj { s with nsigwaiters := s.nsigwaiters - 1 }) rfl rfl rfl rfl rfl rfl rfl rfl
    exact ((h0.trans (upd_mvs hj _ _)).trans (dlClear_mvs hj _)).trans (retv_mvs hj _ _)
  case wait =>
    have h0 : Mvs j s { s with nevwaiters := s.nevwaiters - 1, evw := s.evw.filter (fun e => decide (e.2.2 ≠ i)) } :=
      .same rfl (fun _ _ _ => Iff.rfl) Iff.rfl Iff.rfl (fun fd w => by simp [hj]) rfl rfl (Int.le_refl _)
    exact (h0.trans (dlClear_mvs hj _)).trans (retv_mvs hj _ _)

theorem preBlk_mvs (b : Blk) : Mvs j s (preBlk s i b) := by
  unfold preBlk noteWithdraw
  (repeat' split) <;> first | exact .refl _ | exact note_mvs s (by simp [Ev.about, Ne.symm hj])

theorem doRelock_mvs (hcur : s.sco.cur = some i) (m : Nat) : Mvs j s (doRelock s i m) := by
  unfold doRelock
  (repeat' split)
  · exact grantNow_mvs hj _ _ _ _ _
  · exact ((dlClear_mvs hj s).trans (note_mvs _ (by simp [Ev.about, Ne.symm hj]))).trans (setPc_mvs hj _ _)
  · exact (dlClear_mvs hj s).trans (setPc_mvs hj _ _)
  · exact (dlClear_mvs hj s).trans (finishLock_mvs hj (dlClear s i) hcur _ _ _ _)

theorem exitNotify_mvs (hL : InvL s) (hQ : ∀ c, QOk s c) (a : Bool) : Mvs j s (exitNotify s i a) := by
  have hsc : ∀ (t : S) (L K : LName) (q : List Node), K ≠ .resumers → L ≠ K → ((schedAll (setList t L []) L q).lists K).Sublist (t.lists K) := by
    intro t L K q hK hLK
    have : ((setList t L []).lists K) = t.lists K := by rw [setList_lists, if_neg (Ne.symm hLK)]
    rw [← this]
    generalize setList t L [] = u
    clear this
    induction q generalizing u with
    | nil => exact List.Sublist.refl _
    | cons n q ih => simp only [schedAll]; exact (ih _).trans (schedResume_other _ _ hK)
  unfold exitNotify; dsimp only
  rw [show s.lists (.cancelQ i) = ({ s with all := s.all.filter (fun j => decide (j ≠ i)), allCount := s.allCount - 1, log := .exit i :: s.log } : S).lists (.cancelQ i) from rfl]
  have hm0 : Mvs j s { s with all := s.all.filter (fun j => decide (j ≠ i)), allCount := s.allCount - 1, log := .exit i :: s.log } :=
    .same rfl (fun _ _ _ => Iff.rfl) Iff.rfl Iff.rfl (fun _ _ => Iff.rfl) rfl (by simp [lg, Ev.about, Ne.symm hj]) (Int.le_refl _)
  have hu0 : ∀ k, QOk { s with all := s.all.filter (fun j => decide (j ≠ i)), allCount := s.allCount - 1, log := .exit i :: s.log } k := fun k => (hQ k).mono rfl (List.Sublist.refl _) (fun _ _ => rfl)
  have hL0 : InvL { s with all := s.all.filter (fun j => decide (j ≠ i)), allCount := s.allCount - 1, log := .exit i :: s.log } := hL.congr rfl (fun _ => rfl) (Nat.le_refl _) rfl
  generalize ({ s with all := s.all.filter (fun j => decide (j ≠ i)), allCount := s.allCount - 1, log := .exit i :: s.log } : S) = s0 at *
  have hu1 : ∀ k, QOk (schedAll (setList s0 (.cancelQ i) []) (.cancelQ i) (s0.lists (.cancelQ i))) k := fun k =>
    (hu0 k).mono (by simp) (hsc _ _ _ _ (by simp) (by simp)) (fun n _ => by simp)
  have hL1 : InvL (schedAll (setList s0 (.cancelQ i) []) (.cancelQ i) (s0.lists (.cancelQ i))) :=
    InvL.schedAll (hL0.setList (nil_sub _ _)) _ _ (fun n hn => hL0.ow _ n hn)
  have hm1 := hm0.trans (schedAll_mvs (j := j) s0 hL0 (.inr (.inr (.inr ⟨i, rfl⟩))))
  generalize schedAll (setList s0 (.cancelQ i) []) (.cancelQ i) (s0.lists (.cancelQ i)) = s1 at *
  have hu2 : ∀ k, QOk (schedAll (setList s1 (.joinQ i) []) (.joinQ i) (s1.lists (.joinQ i))) k := fun k =>
    (hu1 k).mono (by simp) (hsc _ _ _ _ (by simp) (by simp)) (fun n _ => by simp)
  have hL2 : InvL (schedAll (setList s1 (.joinQ i) []) (.joinQ i) (s1.lists (.joinQ i))) :=
    InvL.schedAll (hL1.setList (nil_sub _ _)) _ _ (fun n hn => hL1.ow _ n hn)
  have hm2 := hm1.trans (schedAll_mvs (j := j) s1 hL1 (.inr (.inr (.inl ⟨i, rfl⟩))))
  generalize schedAll (setList s1 (.joinQ i) []) (.joinQ i) (s1.lists (.joinQ i)) = s2 at *
  refine hm2.trans ?_
  (repeat' split)
  · exact setPc_mvs hj _ _
  · exact fault_mvs _
  · exact setPc_mvs hj _ _
  · rename_i hch _; exact chanClose1_mvs hj s2 hL2 _ (hu2 _) hch _

theorem doFin_mvs (a : Bool) : Mvs j s (doFin s i a) := by
  unfold doFin; dsimp only
  refine .trans (.trans (rm_mvs hj s) (.eqs (t := { rm s (.co i) with pool := (rm s (.co i)).pool ++ [(s.co i, 0)] }) rfl rfl rfl rfl rfl rfl rfl rfl)) ?_
  refine .trans (setPc_mvs hj _ .dead) (.eqs rfl rfl ?_ rfl rfl rfl rfl rfl)
  dsimp only; split <;> simp

theorem doAft_mvs (hcur : s.sco.cur = some i) (a : Aft) : Mvs j s (doAft s i a) := by
  cases a with
  | ret v => exact retv_mvs hj s v
  | condEnq =>
    simp only [doAft]; split
    · exact cvEnq_mvs hj s hcur _ _
    · exact fault_mvs s
  | genRel a b =>
    simp only [doAft]; split
    · exact ((chanRelease_mvs s _).trans (upd_mvs hj _ _)).trans (setPc_mvs hj _ _)
    · exact fault_mvs s
  | exitTail a b =>
    simp only [doAft]; split
    · exact yfsr_mvs hj _ _ _
    · exact setPc_mvs hj _ _
  | fin a => exact doFin_mvs hj s a

theorem tauCo_mvs (hcur : s.sco.cur = some i) (hL : InvL s) (hQ : ∀ c, QOk s c) {s' : S} (h : tauCo s i = some s') : Mvs j s s' := by
  unfold tauCo at h
  split at h
  case h_1 => cases h
  case h_2 => cases h
  case h_3 => cases h
  case h_4 =>
    cases h; unfold doRet; split
    · exact (note_mvs s (by simp [Ev.about, Ne.symm hj])).trans (setPc_mvs hj _ _)
    · exact (note_mvs s (by simp [Ev.about, Ne.symm hj])).trans (upd_mvs hj _ _)
  case h_5 =>
    (repeat' split at h) <;> cases h
    · exact (note_mvs s (by simp [Ev.about, Ne.symm hj])).trans (setPc_mvs hj _ _)
    · exact setPc_mvs hj _ _
    · exact coyield_mvs hj _ _ _
  case h_6 => cases h; exact coyield_mvs hj _ _ _
  case h_7 => cases h; exact doAft_mvs hj s hcur _
  case h_8 => cases h; refine .trans ?_ (retv_mvs hj _ _); exact .eqs rfl rfl rfl rfl rfl rfl rfl rfl
  case h_9 => cases h; exact ((unpause_mvs hj s).trans (preBlk_mvs hj _ _)).trans (afterBlk_mvs hj _ _)
  case h_10 =>
    split at h <;> cases h
    · exact doCancel_mvs hj s hcur _ _
    · exact fault_mvs s
  case h_11 =>
    split at h <;> cases h
    · exact doRelock_mvs hj s hcur _
    · exact fault_mvs s
  case h_12 => cases h; refine .trans ?_ (retv_mvs hj _ _); exact .eqs rfl rfl rfl rfl rfl rfl rfl rfl
  case h_13 =>
    cases h; unfold doExit
    (repeat' split)
    · exact (upd_mvs hj s _).trans (note_mvs _ (by simp [Ev.about, Ne.symm hj]))
    · exact exitNotify_mvs hj s hL hQ _
    · exact exitNotify_mvs hj s hL hQ _

end self

/-! ## The main loop -/

theorem mResume_mvs (j : Nat) {s : S} (hL : InvL s) (m : MPc) : Mvs j s { mResume s with main := m } := by
  have hco : ∀ n ∈ s.lists .resumers, n = .co n.owner := fun n hn => hL.listCo (by simp) hn
  have hmem : j ∈ (s.lists .resumers).map Node.owner ↔ .co j ∈ s.lists .resumers := by
    rw [List.mem_map]
    constructor
    · rintro ⟨n, hn, rfl⟩; rw [← hco n hn]; exact hn
    · intro hn; exact ⟨_, hn, rfl⟩
  by_cases hn : .co j ∈ s.lists .resumers
  · refine .one (.fromRes hn ⟨by simp [mResume, setList], ?_, ?_, by simp [mResume, setList], by simp [mResume, setList], by simp [mResume, setList], by simp [mResume, setList, lg], by simp [mResume, setList]⟩)
    · intro n K ho
      simp only [mResume, wakeAll_lists, setList_lists]
      by_cases hK : K = .resumers
      · subst hK
        simp
        intro hx
        rw [hco n hx, ho]
      · simp [hK]
    · simp only [mResume, mem_wakeAll, hmem]; simp [hn, setList]
  · refine .same (by simp [mResume, setList]) ?_ ?_ (by simp [mResume, setList]) (by simp [mResume, setList]) (by simp [mResume, setList]) (by simp [mResume, setList, lg]) (by simp [mResume, setList])
    · intro n K ho
      simp only [mResume, wakeAll_lists, setList_lists]
      by_cases hK : K = .resumers
      · subst hK
        simp only [if_true, List.not_mem_nil, false_iff]
        intro hx; rw [hco n hx, ho] at hx; exact hn hx
      · simp [hK]
    · simp only [mResume, mem_wakeAll, hmem]; simp [hn, setList]

theorem mIo_mvs (j : Nat) {s : S} (hL : InvL s) (m : MPc) : Mvs j s { mIo s with main := m } := by
  unfold mIo
  split
  case isFalse => exact .eqs rfl rfl rfl rfl rfl rfl rfl rfl
  have hco : ∀ n ∈ s.lists .iolist, n = .co n.owner := fun n hn => hL.listCo (by simp) hn
  have hmem : j ∈ (s.lists .iolist).map Node.owner ↔ .co j ∈ s.lists .iolist := by
    rw [List.mem_map]
    constructor
    · rintro ⟨n, hn, rfl⟩; rw [← hco n hn]; exact hn
    · intro hn; exact ⟨_, hn, rfl⟩
  by_cases hn : .co j ∈ s.lists .iolist
  · refine .one (.fromIo hn ⟨by simp [setList], ?_, ?_, by simp [setList], by simp [setList], by simp [setList], by simp [setList, lg], by simp [setList]⟩)
    · intro n K ho
      simp only [wakeAll_lists, setList_lists]
      by_cases hK : K = .iolist
      · subst hK
        simp
        intro hx
        rw [hco n hx, ho]
      · simp [hK]
    · simp only [mem_wakeAll, hmem]; simp [hn, setList]
  · refine .same (by simp [setList]) ?_ ?_ (by simp [setList]) (by simp [setList]) (by simp [setList]) (by simp [setList, lg]) (by simp [setList])
    · intro n K ho
      simp only [wakeAll_lists, setList_lists]
      by_cases hK : K = .iolist
      · subst hK
        simp only [if_true, List.not_mem_nil, false_iff]
        intro hx; rw [hco n hx, ho] at hx; exact hn hx
      · simp [hK]
    · simp only [mem_wakeAll, hmem]; simp [hn, setList]

theorem mSig_mvs (j : Nat) {s : S} (hL : InvL s) (m : MPc) : Mvs j s { mSig s with main := m } := by
  unfold mSig
  split
  · exact .eqs rfl rfl rfl rfl rfl rfl rfl rfl
  rename_i n _
  split
  · exact .eqs rfl rfl rfl rfl rfl rfl rfl rfl
  split
  · exact .eqs rfl rfl rfl rfl rfl rfl rfl rfl
  rename_i w hw
  have hin := List.mem_of_find?_eq_some hw
  have hbit := List.find?_some hw
  have hcw := hL.listCo (by simp) hin
  dsimp only
  generalize w.owner = r at *
  subst hcw
  by_cases e : j = r
  · subst e
    refine .one (.sigTo n hin hbit ⟨by simp [scoResume, upd_co, note, upd], fun n L _ => by simp [scoResume, note, upd], by simp [scoResume, mem_resume, note, upd],
      by simp [scoResume, note, upd], by simp [scoResume, note, upd], by simp [scoResume, note, upd], by simp [scoResume, note, upd, lg, Ev.about], by simp [scoResume, note, upd]⟩)
  · exact .same (by simp [scoResume, note, upd, e]) (fun n L _ => by simp [scoResume, note, upd]) (by simp [scoResume, mem_resume, note, upd, e]) (by simp [scoResume, note, upd])
      (by simp [scoResume, note, upd]) (by simp [scoResume, note, upd]) (by simp [scoResume, note, upd, lg, Ev.about, Ne.symm e]) (by simp [scoResume, note, upd])

theorem mDl_mvs (j : Nat) (s : S) (m : MPc) : Mvs j s { mDl s with main := m } := by
  unfold mDl; dsimp only
  by_cases hn : j ∈ s.dlq.filter (fun i => decide ((s.co i).deadline < s.clock))
  · have h1 := (List.mem_filter.mp hn)
    refine .one (.deadlined h1.1 (by simpa using h1.2) ⟨by simp only [wakeAll_co, markDl]; rw [if_pos hn], fun n L _ => by simp [markDl], ?_,
      by simp [markDl], by simp [markDl], by simp [markDl], by simp [markDl, lg], by simp [markDl]⟩)
    simp only [mem_wakeAll]; simp only [hn]; simp [markDl]
  · refine .same (by simp only [wakeAll_co, markDl]; rw [if_neg hn]) (fun n L _ => by simp [markDl]) ?_
      (by simp [markDl]) (by simp [markDl]) (by simp [markDl]) (by simp [markDl, lg]) (by simp [markDl])
    simp only [mem_wakeAll]; simp only [hn]; simp [markDl]

/-- a coroutine waits for at most one thing -/
def EvU (s : S) (j : Nat) : Prop := ∀ fd w fd' w', (fd, w, j) ∈ s.evw → (fd', w', j) ∈ s.evw → fd = fd' ∧ w = w'

theorem mEvent_mvs (j : Nat) {s : S} (hu : EvU s j) (e : Nat × Bool × Bool) : Mvs j s (mEvent s e) := by
  have key : ∀ (fd : Nat) (w : Bool) (x : Nat), x ∈ (s.evw.filter (fun v => v.1 == fd && v.2.1 == w)).map (·.2.2) ↔ (fd, w, x) ∈ s.evw := by
    intro fd w x
    simp only [List.mem_map, List.mem_filter, Bool.and_eq_true, beq_iff_eq]
    constructor
    · rintro ⟨⟨a, b, c⟩, ⟨h1, h2, h3⟩, rfl⟩; simp at h2 h3; subst h2 h3; exact h1
    · intro h; exact ⟨_, ⟨h, rfl, rfl⟩, rfl⟩
  have filt : ∀ (fd : Nat) (w : Bool) (l : List Nat), (l.map (Ev.ready fd w)).filter (Ev.about j) = (l.filter (· == j)).map (Ev.ready fd w) := by
    intro fd w l
    induction l with
    | nil => rfl
    | cons a l ih => simp only [List.map_cons, List.filter_cons, Ev.about, ih]; split <;> simp_all
  unfold mEvent; dsimp only
  by_cases h1 : e.2.1 = true ∧ (e.1, false, j) ∈ s.evw
  · have h2 : ¬ (e.1, true, j) ∈ s.evw := fun h => by simpa using (hu _ _ _ _ h1.2 h).2
    refine .one (.ready e.1 false (((s.evw.filter (fun v => v.1 == e.1 && v.2.1 == false)).map (·.2.2)).filter (· == j) |>.map (Ev.ready e.1 false)) h1.2 ?_ ?_
      ⟨by simp, fun n L _ => by simp, ?_, by simp, by simp, by simp, ?_, by simp⟩)
    · intro h0
      have hx : j ∈ ((s.evw.filter (fun v => v.1 == e.1 && v.2.1 == false)).map (·.2.2)).filter (· == j) := by
        rw [List.mem_filter]; exact ⟨(key _ _ _).mpr h1.2, by simp⟩
      rw [List.map_eq_nil_iff] at h0
      rw [h0] at hx; simp at hx
    · intro ev hev
      rw [List.mem_map] at hev
      obtain ⟨a, ha, rfl⟩ := hev
      rw [List.mem_filter] at ha
      rw [beq_iff_eq.mp ha.2]
    · rw [mem_wakeAll]
      have : j ∈ (if e.2.1 = true then (s.evw.filter (fun v => v.1 == e.1 && v.2.1 == false)).map (·.2.2) else []) := by
        rw [if_pos h1.1]; exact (key _ _ _).mpr h1.2
      rw [List.mem_append]; simp only [this]; simp
    · unfold lg
      simp only [wakeAll_log, List.filter_append, if_pos h1.1, filt]
      have : (List.filter (· == j) (if e.2.2 = true then (s.evw.filter (fun v => v.1 == e.1 && v.2.1 == true)).map (·.2.2) else [])).map (Ev.ready e.1 true) = [] := by
        rw [List.map_eq_nil_iff, List.filter_eq_nil_iff]
        intro a ha hb
        have hb := beq_iff_eq.mp hb
        subst hb
        split at ha
        · exact h2 ((key _ _ _).mp ha)
        · simp at ha
      rw [this]; simp
  · have hr : j ∉ (if e.2.1 = true then (s.evw.filter (fun v => v.1 == e.1 && v.2.1 == false)).map (·.2.2) else []) := by
      split
      · rename_i h; intro hx; exact h1 ⟨h, (key _ _ _).mp hx⟩
      · simp
    have hrl : (List.filter (· == j) (if e.2.1 = true then (s.evw.filter (fun v => v.1 == e.1 && v.2.1 == false)).map (·.2.2) else [])).map (Ev.ready e.1 false) = [] := by
      rw [List.map_eq_nil_iff, List.filter_eq_nil_iff]
      intro a ha hb
      exact hr (beq_iff_eq.mp hb ▸ ha)
    by_cases h2 : e.2.2 = true ∧ (e.1, true, j) ∈ s.evw
    · refine .one (.ready e.1 true (((s.evw.filter (fun v => v.1 == e.1 && v.2.1 == true)).map (·.2.2)).filter (· == j) |>.map (Ev.ready e.1 true)) h2.2 ?_ ?_
        ⟨by simp, fun n L _ => by simp, ?_, by simp, by simp, by simp, ?_, by simp⟩)
      · intro h0
        have hx : j ∈ ((s.evw.filter (fun v => v.1 == e.1 && v.2.1 == true)).map (·.2.2)).filter (· == j) := by
          rw [List.mem_filter]; exact ⟨(key _ _ _).mpr h2.2, by simp⟩
        rw [List.map_eq_nil_iff] at h0
        rw [h0] at hx; simp at hx
      · intro ev hev
        rw [List.mem_map] at hev
        obtain ⟨a, ha, rfl⟩ := hev
        rw [List.mem_filter] at ha
        rw [beq_iff_eq.mp ha.2]
      · rw [mem_wakeAll]
        have : j ∈ (if e.2.2 = true then (s.evw.filter (fun v => v.1 == e.1 && v.2.1 == true)).map (·.2.2) else []) := by
          rw [if_pos h2.1]; exact (key _ _ _).mpr h2.2
        rw [List.mem_append]; simp only [this]; simp
      · unfold lg
        simp only [wakeAll_log, List.filter_append, if_pos h2.1, filt, hrl]
        simp
    · have hw : j ∉ (if e.2.2 = true then (s.evw.filter (fun v => v.1 == e.1 && v.2.1 == true)).map (·.2.2) else []) := by
        split
        · rename_i h; intro hx; exact h2 ⟨h, (key _ _ _).mp hx⟩
        · simp
      have hwl : (List.filter (· == j) (if e.2.2 = true then (s.evw.filter (fun v => v.1 == e.1 && v.2.1 == true)).map (·.2.2) else [])).map (Ev.ready e.1 true) = [] := by
        rw [List.map_eq_nil_iff, List.filter_eq_nil_iff]
        intro a ha hb
        exact hw (beq_iff_eq.mp hb ▸ ha)
      refine .same (by simp) (fun n L _ => by simp) ?_ (by simp) (by simp) (by simp) ?_ (by simp)
      · rw [mem_wakeAll, List.mem_append]; simp only [hr, hw]; simp
      · unfold lg
        simp only [wakeAll_log, List.filter_append, filt, hrl, hwl]
        simp

theorem mEvents_mvs (j : Nat) {s : S} (hu : EvU s j) (q) : Mvs j s (mEvents s q) := by
  induction q generalizing s with
  | nil => exact .refl _
  | cons e q ih =>
    simp only [mEvents]
    refine (mEvent_mvs j hu e).trans (ih ?_)
    intro fd w fd' w'
    simpa using hu fd w fd' w'

theorem tauMain_mvs (j : Nat) {s s' : S} (hL : InvL s) (h : tauMain s = some s') : Mvs j s s' := by
  unfold tauMain at h
  split at h
  · (repeat' split at h) <;> cases h
    · exact .trans (note_mvs s (e := .halt) rfl) (.eqs rfl rfl rfl rfl rfl rfl rfl rfl)
    · exact mResume_mvs j hL _
    · exact .eqs rfl rfl rfl rfl rfl rfl rfl rfl
  · cases h; exact mIo_mvs j hL _
  · cases h
  · cases h; exact mSig_mvs j hL _
  · cases h; exact mDl_mvs j s _
  · cases h; exact .eqs (by simp) (by simp) (by simp) (by simp) (by simp) (by simp) (by simp) (by simp)
  · cases h; exact .eqs rfl rfl (by simp) rfl rfl rfl rfl rfl
  · cases h

/-- what one step does to a coroutine that is not running -/
theorem step_other {s s' : S} {a : Act} (hL : InvL s) (hC : InvC s) (hs : step s a = some s') {j : Nat}
    (hj : s.sco.cur ≠ some j) (hn : a = .call .start ∨ a = .call .genStart → j ≠ s.sco.nextId + 1) (hu : EvU s j) : Mvs j s s' := by
  have hft := step_nofault hs
  have hQ := hC.ok hft
  unfold step at hs
  split at hs
  · cases hs
  cases a with
  | call c =>
    simp only at hs
    split at hs
    · cases hs
    rename_i i hc
    split at hs <;> cases hs
    rename_i hpc
    have hji : j ≠ i := fun e => hj (by rw [hc, e])
    have hf : Free s i := hL.free (by rw [hpc.1]; rfl)
    have hL1 : InvL (upd (note s (.call i c)) i (fun k => { k with call := c })) := (hL.note _).updFree hf _
    have hu1 : ∀ k, QOk (upd (note s (.call i c)) i (fun k => { k with call := c })) k := fun k =>
      (hQ k).mono rfl (List.Sublist.refl _) (fun n _ => by rw [upd_co]; split <;> simp_all)
    exact ((note_mvs s (by simp [Ev.about, Ne.symm hji])).trans (upd_mvs hji _ _)).trans (doCall_mvs hji (upd (note s (.call i c)) i (fun k => { k with call := c })) hc hL1 hu1 c (fun h => hn (by simpa using h)))
  | finish =>
    simp only at hs
    split at hs
    · cases hs
    rename_i i hc
    have hji : j ≠ i := fun e => hj (by rw [hc, e])
    split at hs <;> cases hs
    exact setPc_mvs hji s _
  | tau =>
    simp only at hs
    split at hs
    · rename_i i hc
      have hji : j ≠ i := fun e => hj (by rw [hc, e])
      exact tauCo_mvs hji s hc hL hQ hs
    · exact tauMain_mvs j hL hs
  | submit ok =>
    simp only at hs
    split at hs
    · cases hs
    rename_i i hc
    have hji : j ≠ i := fun e => hj (by rw [hc, e])
    split at hs
    · split at hs <;> cases hs
      · refine .same (by simp [setPc_co, hji]) (fun _ _ _ => Iff.rfl) (mem_pause (by simpa using hc) hji) Iff.rfl (fun _ _ => Iff.rfl) (by simp [Ne.symm hji]) rfl (Int.le_refl _)
      · exact .eqs rfl rfl (by simp) rfl rfl rfl rfl rfl
    · cases hs
  | events evs =>
    simp only at hs
    split at hs
    · cases hs
      split
      · exact (mEvents_mvs j hu evs).trans (.eqs rfl rfl rfl rfl rfl rfl rfl rfl)
      · exact .eqs rfl rfl rfl rfl rfl rfl rfl rfl
    · cases hs
  | clock t =>
    simp only at hs; split at hs <;> cases hs
    rename_i h
    exact .same rfl (fun _ _ _ => Iff.rfl) Iff.rfl Iff.rfl (fun _ _ => Iff.rfl) rfl rfl h
  | signal n =>
    simp only at hs; (repeat' split at hs) <;> cases hs <;> exact .trans (note_mvs s (e := .sig n) rfl) (.eqs rfl rfl rfl rfl rfl rfl rfl rfl)
  | wdone i =>
    simp only at hs; split at hs <;> cases hs
    rename_i hi
    by_cases e : j = i
    · subst e
      refine .one (.wdone hi rfl ?_ Iff.rfl Iff.rfl (fun _ _ => Iff.rfl) ?_ (by simp [lg, push, Ev.about, setList, rm, List.filter_append, filter_leave_self]) (Int.le_refl _))
      · intro n K ho
        rw [mem_push]
        constructor
        · rintro (h | h)
          · exact .inl h
          · exact .inr h.symm
        · rintro (h | h)
          · exact .inl h
          · exact .inr h.symm
      · have : 0 < s.jobs.count j := List.count_pos_iff.mpr hi
        simp [push, setList, rm, List.count_erase_self]; omega
    · refine .same rfl (fun n K ho => ?_) Iff.rfl Iff.rfl (fun _ _ => Iff.rfl) (by simp [push, setList, rm, List.count_erase_of_ne e]) (by simp only [lg, push, setList, rm, List.filter_cons, Ev.about, List.filter_append, filter_leave_nil (s := s) (i := i) (p := Ev.about j) (fun c => by simp [Ev.about, Ne.symm e])]; simp [Ne.symm e]) (Int.le_refl _)
      rw [mem_push]; simp [owner_ne ho e]

end Neco.Rt
