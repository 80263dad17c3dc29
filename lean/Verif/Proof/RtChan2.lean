import Verif.Proof.RtChan
/-!
# The channel invariant holds in every reachable state
-/
namespace Neco.Rt
open Neco.Err

theorem SubO.sub {i : Nat} {s t : S} (h : SubO i s t) {L : LName} (h1 : L ≠ .resumers) (h2 : L ≠ .iolist)
    (hn : ∀ n ∈ t.lists L, n.owner ≠ i) : (t.lists L).Sublist (s.lists L) := by
  obtain ⟨o, ho, hs⟩ := h.h L h1 h2
  have h3 := hs.filter (fun n => decide (n.owner ≠ i))
  rw [List.filter_append] at h3
  have e1 : o.filter (fun n => decide (n.owner ≠ i)) = [] := by
    rw [List.filter_eq_nil_iff]; intro n hn'; simpa using ho n hn'
  have e2 : (t.lists L).filter (fun n => decide (n.owner ≠ i)) = t.lists L := by
    rw [List.filter_eq_self]; intro n hn'; simpa using hn n hn'
  rw [e1, e2, List.append_nil] at h3
  exact h3.trans List.filter_sublist

theorem place_chq {c : Co} {n : Node} {k : Nat} (h : place c n (.chanQ k)) : chq c.pc = true := by
  cases n <;> simp only [place] at h
  · rcases h with h | h <;> simp [h.1, chq]
  · simp [h.1, chq]

theorem QOk.gen {s t : S} {i k : Nat} (h : QOk s k) (hL : InvL s) (hLt : InvL t) (hs : SubO i s t)
    (hv : ∀ j, j ≠ i → j ≤ s.sco.nextId → view (t.co j) = view (s.co j)) (hp : chq (t.co i).pc = false)
    (hc : (t.chan k).map core = (s.chan k).map core) : QOk t k := by
  have hn : ∀ n ∈ t.lists (.chanQ k), n.owner ≠ i := by
    intro n hn e
    have := place_chq (hLt.pl _ n hn)
    rw [e, hp] at this; cases this
  have hsub := hs.sub (L := .chanQ k) (by simp) (by simp) hn
  refine h.mono hc hsub (fun n hn' => view_pc (hv _ (hn n hn') (hL.ow _ n (hsub.subset hn'))))

/-- the channels after a step of the running coroutine inside the library, when they change -/
theorem tauCo_chan {s s' : S} {i : Nat} (h : tauCo s i = some s')
    (h1 : ∀ a b, (s.co i).pc ≠ .go (.genRel a b)) (h2 : ∀ a, (s.co i).pc ≠ .exitRun a) (k : Nat) :
    (s'.chan k).map core = (s.chan k).map core := by
  unfold tauCo at h
  split at h
  case h_1 => cases h
  case h_2 => cases h
  case h_3 => cases h
  case h_4 => cases h; unfold doRet; split <;> rfl
  case h_5 => (repeat' split at h) <;> cases h <;> rfl
  case h_6 => cases h; rfl
  case h_7 a hp =>
    cases h
    cases a with
    | ret v => rfl
    | condEnq => simp only [doAft]; split <;> first | rfl | simp
    | genRel a b => exact absurd hp (h1 a b)
    | exitTail => simp only [doAft]; split <;> simp
    | fin a => simp [doAft]
  case h_8 =>
    cases h
    simp only [retv_chan]; split
    · subst_vars; cases s.chan _ <;> rfl
    · rfl
  case h_9 b _ => cases h; cases b <;> simp only [afterBlk] <;> (repeat' split) <;> simp
  case h_10 => (split at h) <;> cases h <;> first | rfl | simp
  case h_11 => (split at h) <;> cases h <;> first | rfl | simp
  case h_12 => cases h; rfl
  case h_13 a hp => exact absurd hp (h2 a)

theorem tauCo_nchan {s s' : S} {i : Nat} (h : tauCo s i = some s') : s'.nchan = s.nchan := by
  unfold tauCo at h
  split at h
  case h_1 => cases h
  case h_2 => cases h
  case h_3 => cases h
  case h_4 => cases h; simp
  case h_5 => (repeat' split at h) <;> cases h <;> simp
  case h_6 => cases h; simp
  case h_7 => cases h; simp
  case h_8 => cases h; simp
  case h_9 b _ => cases h; cases b <;> simp only [afterBlk] <;> (repeat' split) <;> simp
  case h_10 => (split at h) <;> cases h <;> simp
  case h_11 => (split at h) <;> cases h <;> simp
  case h_12 => cases h; simp
  case h_13 => cases h; simp

theorem step_nofault {s s' : S} {a : Act} (h : step s a = some s') : s.fault = false := by
  unfold step at h
  split at h
  · cases h
  · rename_i hn; simp only [not_or] at hn; simpa using hn.2.1

/-- releasing a channel -/
theorem QOk.chanRelease {s : S} {k : Nat} (h : ∀ k, QOk s k) (c : Nat) (hft : (chanRelease s c).fault = false) : QOk (chanRelease s c) k := by
  obtain ⟨e1, e2, _⟩ := chanRelease_frame s c
  have hx : ((Rt.chanRelease s c).chan k).map core = (s.chan k).map core →  QOk (Rt.chanRelease s c) k := fun hc =>
    (h k).mono hc (by rw [e1]; exact List.Sublist.refl _) (fun n _ => by rw [e2])
  revert hx e1 e2 hft
  unfold Rt.chanRelease
  split
  · intro hft; simp at hft
  · rename_i ch hc
    split
    · intro hft e1 e2 hx
      by_cases hk : k = c
      · subst hk
        simp at hft
        refine ⟨fun _ => hft.2, ?_⟩
        intro ch' e; simp at e
      · exact hx (by simp [hk])
    · intro hft e1 e2 hx
      refine hx ?_
      by_cases hk : k = c
      · subst hk; simp [setChan, hc, core]
      · simp [setChan, hk]

/-- taking coroutines out of the queues of others does not disturb the channels -/
theorem QOk.exitNotify {s : S} {i k : Nat} (hf : Free s i) (h : ∀ k, QOk s k) (a : Bool) (hft : (exitNotify s i a).fault = false) :
    QOk (exitNotify s i a) k := by
  have hsc : ∀ (t : S) (L K : LName) (q : List Node), K ≠ .resumers → L ≠ K → ((schedAll (setList t L []) L q).lists K).Sublist (t.lists K) := by
    intro t L K q hK hLK
    have : ((setList t L []).lists K) = t.lists K := by rw [setList_lists, if_neg (Ne.symm hLK)]
    rw [← this]
    generalize setList t L [] = u
    clear this
    induction q generalizing u with
    | nil => exact List.Sublist.refl _
    | cons n q ih => simp only [schedAll]; exact (ih _).trans (schedResume_other _ _ hK)
  revert hft
  unfold Rt.exitNotify; dsimp only
  rw [show s.lists (.cancelQ i) = ({ s with all := s.all.filter (fun j => decide (j ≠ i)), allCount := s.allCount - 1, log := .exit i :: s.log } : S).lists (.cancelQ i) from rfl]
  have hu0 : ∀ k, QOk { s with all := s.all.filter (fun j => decide (j ≠ i)), allCount := s.allCount - 1, log := .exit i :: s.log } k := fun k => (h k).mono rfl (List.Sublist.refl _) (fun _ _ => rfl)
  have hf0 : Free { s with all := s.all.filter (fun j => decide (j ≠ i)), allCount := s.allCount - 1, log := .exit i :: s.log } i := hf
  generalize ({ s with all := s.all.filter (fun j => decide (j ≠ i)), allCount := s.allCount - 1, log := .exit i :: s.log } : S) = s0 at *
  have hu1 : ∀ k, QOk (schedAll (setList s0 (.cancelQ i) []) (.cancelQ i) (s0.lists (.cancelQ i))) k := fun k =>
    (hu0 k).mono (by simp) (hsc _ _ _ _ (by simp) (by simp)) (fun n _ => by simp)
  have hf1 : Free (schedAll (setList s0 (.cancelQ i) []) (.cancelQ i) (s0.lists (.cancelQ i))) i :=
    (hf0.setList (nil_sub _ _)).schedAll _ _
  generalize schedAll (setList s0 (.cancelQ i) []) (.cancelQ i) (s0.lists (.cancelQ i)) = s1 at *
  have hu2 : ∀ k, QOk (schedAll (setList s1 (.joinQ i) []) (.joinQ i) (s1.lists (.joinQ i))) k := fun k =>
    (hu1 k).mono (by simp) (hsc _ _ _ _ (by simp) (by simp)) (fun n _ => by simp)
  have hf2 : Free (schedAll (setList s1 (.joinQ i) []) (.joinQ i) (s1.lists (.joinQ i))) i :=
    (hf1.setList (nil_sub _ _)).schedAll _ _
  generalize schedAll (setList s1 (.joinQ i) []) (.joinQ i) (s1.lists (.joinQ i)) = s2 at *
  have hpc : ∀ (p : Pc) j, j ≠ i → ((setPc s2 i p).co j).pc = (s2.co j).pc := by
    intro p j hj; rw [setPc_co, if_neg hj]
  (repeat' split) <;> intro hft
  · exact (hu2 k).op (hpc _) hf2 (by simp) (by simp)
  · simp at hft
  · exact (hu2 k).op (hpc _) hf2 (by simp) (by simp)
  · rename_i h1; exact QOk.chanClose1 hf2 hu2 _ (by assumption) (by simpa using h1) _ k

theorem tauMain_Q {s s' : S} (h : tauMain s = some s') : (∀ k, s'.lists (.chanQ k) = s.lists (.chanQ k)) ∧ s'.chan = s.chan ∧ s'.nchan = s.nchan := by
  unfold tauMain at h
  split at h
  · (repeat' split at h) <;> cases h
    · exact ⟨fun _ => rfl, rfl, rfl⟩
    · exact ⟨fun _ => by simp [mResume, setList_lists], by simp, by simp⟩
    · exact ⟨fun _ => rfl, rfl, rfl⟩
  · cases h
    refine ⟨fun k => ?_, by simp, by simp⟩
    unfold mIo; split
    · simp [setList_lists]
    · rfl
  · cases h
  · cases h; exact ⟨fun _ => by simp, by simp, by simp⟩
  · cases h; exact ⟨fun _ => by simp, by simp, by simp⟩
  · cases h; exact ⟨fun _ => by simp, by simp, by simp⟩
  · cases h; exact ⟨fun _ => rfl, rfl, rfl⟩
  · cases h

theorem InvC.fresh_of {s s' : S} (h : InvC s) (hn : s.nchan ≤ s'.nchan)
    (hd : ∀ k, (s'.chan k).isSome = true → (s.chan k).isSome = true ∨ k < s'.nchan) : ∀ k, s'.nchan ≤ k → s'.chan k = none := by
  intro k hk
  cases e : s'.chan k with
  | none => rfl
  | some ch =>
    rcases hd k (by simp [e]) with h1 | h1
    · rw [h.fresh k (Nat.le_trans hn hk)] at h1; cases h1
    · omega

theorem InvC.step {s s' : S} {a : Act} (h : InvC s) (hL : InvL s) (hw : Sco.WF s.sco) (hs : step s a = some s') : InvC s' := by
  have hft := step_nofault hs
  have hLt := hL.step hw hs
  have hu := h.ok hft
  have hs0 := hs
  unfold Rt.step at hs
  split at hs
  · cases hs
  cases a with
  | call c =>
    simp only at hs
    split at hs
    · cases hs
    rename_i i hc
    split at hs <;> cases hs
    rename_i hpc
    have hi := (cur_le hw hc).2
    have hf : Free s i := hL.free (by rw [hpc.1]; rfl)
    have hL1 : InvL (upd (note s (.call i c)) i (fun k => { k with call := c })) :=
      (hL.congr (t := note s (.call i c)) rfl (fun _ => rfl) (Nat.le_refl _) rfl).updFree hf _
    have hf1 : Free (upd (note s (.call i c)) i (fun k => { k with call := c })) i := hf
    have hu1 : ∀ k, QOk (upd (note s (.call i c)) i (fun k => { k with call := c })) k := fun k =>
      (hu k).mono rfl (List.Sublist.refl _) (fun n _ => by rw [upd_co]; split <;> simp_all)
    have hpc1 : chq ((upd (note s (.call i c)) i (fun k => { k with call := c })).co i).pc = false := by
      simp [upd_co, hpc.1, chq]
    have hn1 : i ≤ (upd (note s (.call i c)) i (fun k => { k with call := c })).sco.nextId := hi
    have hfr : ∀ k, (upd (note s (.call i c)) i (fun k => { k with call := c })).nchan ≤ k →
        (upd (note s (.call i c)) i (fun k => { k with call := c })).chan k = none := h.fresh
    generalize upd (note s (.call i c)) i (fun k => { k with call := c }) = s1 at *
    have h1 : InvC s1 := ⟨hfr, fun _ => hu1⟩
    have hgen : ∀ k, c.chans = false → ((doCall s1 i c).chan k).map core = (s1.chan k).map core → QOk (doCall s1 i c) k := fun k hcc hcore =>
      (hu1 k).gen hL1 hLt (doCall_subO s1 i c) (fun j hj hn => doCall_view hj s1 c hn) (doCall_pc s1 i c hcc hpc1 hn1) hcore
    by_cases hnc : c.noChan = true
    · refine ⟨?_, fun _ k => hgen k ?_ (by rw [doCall_chan _ _ _ hnc])⟩
      · rw [doCall_chan _ _ _ hnc]
        intro k hk
        refine hfr k (Nat.le_trans ?_ hk)
        cases c <;> first | (simp [Call.noChan] at hnc; done) | simp [doCall]
      · cases c <;> first | rfl | (simp [Call.noChan] at hnc)
    · have hd : ∀ t : S, t.nchan = s1.nchan → (∀ k, (t.chan k).isSome = true → (s1.chan k).isSome = true) →
          ∀ k, t.nchan ≤ k → t.chan k = none := fun t hn hd => h1.fresh_of (Nat.le_of_eq hn.symm) (fun k hk => .inl (hd k hk))
      cases c <;> first | (simp [Call.noChan] at hnc; done) | simp only [doCall] at *
      case send c m dl => exact ⟨hd _ (by simp) (chanSend_dom s1 i c m dl), fun hft k => QOk.chanSend hf1 hu1 c m dl hft k⟩
      case bcast c m => exact ⟨hd _ (by simp) (chanBcast_dom s1 i c m), fun hft k => QOk.chanBcast hf1 hu1 c m k hft⟩
      case recv c dl => exact ⟨hd _ (by simp) (chanRecv_dom s1 i c _ dl), fun hft k => QOk.chanRecv hf1 hu1 hL1 c _ dl hft k⟩
      case tryrecv c => exact ⟨hd _ (by simp) (chanRecv_dom s1 i c _ _), fun hft k => QOk.chanRecv hf1 hu1 hL1 c _ _ hft k⟩
      case close c => exact ⟨hd _ (by simp) (chanClose_dom s1 i c), fun hft k => QOk.chanClose hf1 hu1 c hft k⟩
      case select cs dl => exact ⟨hd _ (by simp) (chanSelect_dom s1 i cs _ dl), fun hft k => QOk.chanSelect hf1 hu1 hL1 cs _ dl hft k⟩
      case tryselect cs => exact ⟨hd _ (by simp) (chanSelect_dom s1 i cs _ _), fun hft k => QOk.chanSelect hf1 hu1 hL1 cs _ _ hft k⟩
      case genYield m dl =>
        unfold doGenYield at *
        split at *
        · exact ⟨hd _ rfl (fun _ => id), fun _ k => (hu1 k).op (i := i) (fun j hj => by rw [retv_co, if_neg hj]) hf1 (by simp) (by simp)⟩
        · exact ⟨hd _ (by simp) (chanSend_dom s1 i _ m dl), fun hft k => QOk.chanSend hf1 hu1 _ m dl hft k⟩
      case chRelease c =>
        refine ⟨hd _ (by simp) (fun k hk => chanRelease_dom s1 c k hk), fun hft k => ?_⟩
        have := QOk.chanRelease (k := k) hu1 c (by simpa using hft)
        exact this.op (i := i) (fun j hj => by rw [retv_co, if_neg hj]) (by
          intro L n hn; rw [(chanRelease_frame s1 c).1] at hn; exact hf1 L n hn) (by simp) (by simp)
      case chRetain c =>
        split at *
        · exact ⟨hfr, fun h => by simp at h⟩
        · rename_i ch he
          have hcore : ∀ k, ((setChan s1 c { ch with rc := ch.rc + 1 }).chan k).map core = (s1.chan k).map core := by
            intro k
            by_cases hk : k = c
            · subst hk; simp [setChan, he, core]
            · simp [setChan, hk]
          exact ⟨hd _ rfl (fun k hk => some_of_core (hcore k) (by simpa using hk)), fun _ k => (hu1 k).op (i := i) (fun j hj => by rw [retv_co, if_neg hj]; rfl) hf1 (by simp) (by simpa using hcore k)⟩
      case chMake cap =>
        refine ⟨fun k hk => ?_, fun _ k => ?_⟩
        · simp at hk ⊢
          rw [if_neg (by omega)]; exact hfr k (by omega)
        · by_cases hk : k = s1.nchan
          · subst hk
            exact QOk.nil (ch := { cap := cap }) (by simp) (by simpa using (hu1 _).1 (hfr _ (Nat.le_refl _))) (by simp) (by simp)
          · exact (hu1 k).op (i := i) (fun j hj => by rw [retv_co, if_neg hj]) hf1 (by simp) (by simp [hk])
      case genStart =>
        have hv : ∀ j, j ≠ i → j ≤ s1.sco.nextId → view ((doGenStart s1 i).co j) = view (s1.co j) := fun j hj hn => doCall_view hj s1 .genStart hn
        refine ⟨fun k hk => ?_, fun _ k => ?_⟩
        · simp [doGenStart] at hk ⊢
          rw [if_neg (by omega)]; exact hfr k (by omega)
        · by_cases hk : k = s1.nchan
          · subst hk
            exact QOk.nil (ch := { rc := 1 }) (by simp [doGenStart]) (by simpa using (hu1 _).1 (hfr _ (Nat.le_refl _))) (by simp) (by simp)
          · exact hgen k rfl (by simp [doGenStart, hk])
  | finish =>
    simp only at hs
    split at hs
    · cases hs
    rename_i i hc
    split at hs <;> cases hs
    rename_i hpc
    exact ⟨h.fresh, fun _ k => (hu k).op (i := i) (fun j hj => by rw [setPc_co, if_neg hj]) (hL.free (by rw [hpc]; rfl)) (by simp) (by simp)⟩
  | tau =>
    simp only at hs
    split at hs
    · rename_i i hc
      have hi := (cur_le hw hc).2
      by_cases h1 : ∃ a b, (s.co i).pc = .go (.genRel a b)
      · obtain ⟨sc, as, hp⟩ := h1
        have hf : Free s i := hL.free (by rw [hp]; rfl)
        unfold tauCo at hs; rw [hp] at hs; simp only [doAft] at hs
        split at hs <;> cases hs
        · rename_i g hg
          refine ⟨h.fresh_of (by simp) (fun k hk => .inl (chanRelease_dom s g k hk)), fun hft' k => ?_⟩
          have := QOk.chanRelease (k := k) hu g (by simpa using hft')
          exact this.op (i := i) (fun j hj => by rw [setPc_co, if_neg hj, upd_co, if_neg hj]) (by
            intro L n hn; rw [(chanRelease_frame s g).1] at hn; exact hf L n hn) (by simp) (by simp)
        · exact ⟨h.fresh, fun h => by simp at h⟩
      by_cases h2 : ∃ a, (s.co i).pc = .exitRun a
      · obtain ⟨as, hp⟩ := h2
        have hf : Free s i := hL.free (by rw [hp]; rfl)
        unfold tauCo at hs; rw [hp] at hs; simp only [doExit] at hs
        (repeat' split at hs) <;> cases hs
        · exact ⟨h.fresh, fun _ k => (hu k).op (i := i) (fun j hj => by rw [note_co, upd_co, if_neg hj]) hf (by simp) (by simp)⟩
        · exact ⟨h.fresh_of (by simp) (fun k hk => .inl (exitNotify_dom s i _ k hk)), fun hft' k => QOk.exitNotify hf hu _ hft'⟩
        · exact ⟨h.fresh_of (by simp) (fun k hk => .inl (exitNotify_dom s i _ k hk)), fun hft' k => QOk.exitNotify hf hu _ hft'⟩
      have hcore := fun k => tauCo_chan hs (fun a b e => h1 ⟨a, b, e⟩) (fun a e => h2 ⟨a, e⟩) k
      refine ⟨h.fresh_of ?_ (fun k hk => .inl (some_of_core (hcore k) hk)), fun _ k => ?_⟩
      · rw [tauCo_nchan hs]; exact Nat.le_refl _
      · exact (hu k).gen hL hLt (tauCo_subO hs) (fun j hj _ => tauCo_view hj hs) (tauCo_pc hs) (hcore k)
    · obtain ⟨e1, e2, e3⟩ := tauMain_Q hs
      refine ⟨fun k hk => ?_, fun _ k => (hu k).mono (by rw [e2]) (by rw [e1]; exact List.Sublist.refl _) (fun n _ => view_pc (tauMain_view hs _))⟩
      rw [e2]; rw [e3] at hk; exact h.fresh k hk
  | submit ok =>
    simp only at hs
    split at hs
    · cases hs
    rename_i i hc
    split at hs
    · rename_i hpc
      split at hs <;> cases hs
      · exact ⟨h.fresh, fun _ k => (hu k).op (i := i) (fun j hj => by show ((setPc _ i _).co j).pc = _; rw [setPc_co, if_neg hj]) (hL.free (by rw [hpc]; rfl)) (by simp) (by simp)⟩
      · exact ⟨h.fresh, fun _ k => (hu k).mono rfl (List.Sublist.refl _) (fun _ _ => rfl)⟩
    · cases hs
  | events evs =>
    simp only at hs
    split at hs <;> cases hs
    refine ⟨?_, fun _ k => ?_⟩
    · intro k hk
      have : (if s.nevwaiters > 0 then mEvents s evs else s).chan = s.chan := by split <;> simp
      show (if s.nevwaiters > 0 then mEvents s evs else s).chan k = none
      rw [this]; refine h.fresh k ?_
      have : (if s.nevwaiters > 0 then mEvents s evs else s).nchan = s.nchan := by split <;> simp
      rw [← this]; exact hk
    · refine (hu k).mono ?_ ?_ ?_
      · split <;> simp
      · split <;> simp
      · intro n _; split <;> simp
  | clock t => simp only at hs; split at hs <;> cases hs; exact ⟨h.fresh, fun _ k => (hu k).mono rfl (List.Sublist.refl _) (fun _ _ => rfl)⟩
  | signal n =>
    simp only at hs; (repeat' split at hs) <;> cases hs <;>
      exact ⟨h.fresh, fun _ k => (hu k).mono rfl (List.Sublist.refl _) (fun _ _ => rfl)⟩
  | wdone i =>
    simp only at hs; split at hs <;> cases hs
    exact ⟨h.fresh, fun _ k => (hu k).mono rfl (push_ne (s := { note s (.wdone i) with jobs := s.jobs.erase i }) (L := .iolist) (by simp)) (fun _ _ => rfl)⟩

theorem reach_invC {ok} {s : S} (h : Reach ok s) : InvC s := by
  induction h with
  | init a e =>
    refine ⟨fun k _ => rfl, fun _ k => ⟨fun _ => rfl, fun ch e => ?_⟩⟩
    simp [init] at e
  | step h a hok hs ih => exact ih.step (reach_invL h) (reach_scoWF h) hs

end Neco.Rt
