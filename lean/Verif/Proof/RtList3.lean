import Verif.Proof.RtList2
/-!
# Every reachable state has consistent queues
-/
namespace Neco.Rt
open Neco.Err

theorem free_rm {s : S} (h : InvL s) {i : Nat} (hp : (s.co i).pc ≠ .blk .sel) : Free (rm s (.co i)) i := by
  intro L n hn ho
  rw [mem_rm] at hn
  have hpl := h.pl L n hn.1
  rw [ho] at hpl
  cases n with
  | co j => simp [Node.owner] at ho; subst ho; exact absurd rfl hn.2
  | case j idx =>
    cases L <;> simp only [place] at hpl <;> first | exact hpl.elim | exact absurd hpl.1 hp

theorem free_selRm {s : S} (h : InvL s) {i : Nat} (hp : (s.co i).pc = .blk .sel) : Free (selRm s i) i := by
  intro L n hn ho
  simp only [selRm, List.mem_filter] at hn
  have hpl := h.pl L n hn.1
  rw [ho] at hpl
  cases n with
  | co j => cases L <;> simp [place, hp] at hpl <;> simp
  | case j idx => simp [Node.owner] at ho; subst ho; simp at hn

theorem selRm_sub (s : S) (i : Nat) (L : LName) : ((selRm s i).lists L).Sublist (s.lists L) := List.filter_sublist

theorem InvL.unpause {s : S} (h : InvL s) (i : Nat) : InvL (unpause s i) :=
  h.congr (by simp) (unpause_view s i) (by simp) (by simp)

theorem InvL.alter' {s t : S} (h : InvL s) {i : Nat} (hf : Free t i) (hl : ∀ L, (t.lists L).Sublist (s.lists L))
    (hc : ∀ j, j ≠ i → t.co j = s.co j) (hn : s.sco.nextId ≤ t.sco.nextId) (hj : t.jobs = s.jobs) : InvL t := by
  refine h.mono hl (fun j => ?_) hn (fun _ a => hj ▸ a)
  by_cases e : j = i
  · right; subst e; exact hf
  · left; rw [hc j e]

theorem InvL.afterBlk {s : S} (h : InvL s) {i : Nat} {b : Blk} (hp : (s.co i).pc = .blk b) : InvL (afterBlk s i b) := by
  have hq : b ≠ .sel → Free (Rt.rm s (.co i)) i := fun e => free_rm h (by rw [hp]; simpa using e)
  cases b <;> simp only [Rt.afterBlk] <;> (repeat' split) <;>
    refine h.alter' (i := i) (fun L n hn ho => ?_) (fun L => ?_) (fun j hj => ?_) ?_ ?_ <;>
    first
    | exact Nat.le_refl _
    | rfl
    | (simp [setPc_co, retv_co, dlClear_co, upd_co, hj]; done)
    | exact List.Sublist.refl _
    | exact List.filter_sublist
    | exact hq (by simp) L n hn ho
    | exact h.free (by rw [hp]; rfl) L n hn ho
    | exact free_selRm h hp L n hn ho

theorem preBlk_frame (s : S) (i : Nat) (b : Blk) : (preBlk s i b).lists = s.lists ∧ (preBlk s i b).co = s.co ∧
    (preBlk s i b).sco = s.sco ∧ (preBlk s i b).jobs = s.jobs := by
  unfold preBlk noteWithdraw; (repeat' split) <;> exact ⟨rfl, rfl, rfl, rfl⟩

theorem InvL.doRelock {s : S} (h : InvL s) {i : Nat} (hf : Free s i) (ho : i ≤ s.sco.nextId) {v m : Nat} {dl : Int}
    (hs : (s.co i).call = .cvWait v m dl) : InvL (doRelock s i m) := by
  unfold Rt.doRelock; (repeat' split)
  · refine InvL.retv ?_ ?_ _
    · exact h.congr rfl (fun _ => rfl) (Nat.le_refl _) rfl
    · exact hf
  · refine InvL.setPc ?_ ?_ _
    · exact h.dlClear.congr rfl (fun _ => rfl) (Nat.le_refl _) rfl
    · exact hf
  · exact h.dlClear.setPc hf _
  · refine InvL.finishLock h.dlClear hf ho m false MAX .relock ?_
    exact .inr (.inr ⟨rfl, ⟨v, dl, by simpa [dlClear_co] using hs⟩, rfl⟩)

theorem InvL.doCancel {s : S} (h : InvL s) {i : Nat} (hf : Free s i) (ho : i ≤ s.sco.nextId) {id : Nat} {dl : Int}
    (hs : (s.co i).call = .cancel id dl) : InvL (doCancel s i id dl) := by
  unfold Rt.doCancel; dsimp only; (repeat' split)
  · exact h.retv hf _
  · exact h.dlClear.retv hf _
  · refine InvL.scoResume ?_ _
    refine InvL.setPc ?_ ?_ _
    · refine (h.dlClear (i := i)).congr rfl ?_ (Nat.le_refl _) rfl
      intro j; simp only [note_co, upd_co]; split
      · subst_vars; rfl
      · rfl
    · exact hf
  · refine h.pushPause hf ho dl .cancel (L := .cancelQ id) rfl ?_ ?_ (Nat.le_refl _) rfl
    · intro j hj; simp [dlClear_co, hj]
    · exact ⟨rfl, dl, by simpa [dlClear_co] using hs⟩

theorem InvL.exitNotify {s : S} (h : InvL s) {i : Nat} (hf : Free s i) (ho : i ≤ s.sco.nextId) (a : Bool) :
    InvL (exitNotify s i a) := by
  unfold Rt.exitNotify; dsimp only
  have h1 : ∀ t : S, t.lists = s.lists → t.co = s.co → t.sco = s.sco → t.jobs = s.jobs →
      InvL (Rt.schedAll (Rt.setList t (.cancelQ i) []) (.cancelQ i) (t.lists (.cancelQ i))) ∧
      Free (Rt.schedAll (Rt.setList t (.cancelQ i) []) (.cancelQ i) (t.lists (.cancelQ i))) i := by
    intro t e1 e2 e3 e4
    have ht : InvL t := h.congr e1 (fun _ => by rw [e2]) (by rw [e3]; exact Nat.le_refl _) e4
    have hft : Free t i := fun L n => by rw [e1]; exact hf L n
    exact ⟨InvL.schedAll (ht.setList (nil_sub _ _)) _ _ (fun n hn => ht.ow _ n hn), Free.schedAll (hft.setList (nil_sub _ _)) _ _⟩
  obtain ⟨h2, f2⟩ := h1 { s with all := s.all.filter (fun j => decide (j ≠ i)), allCount := s.allCount - 1, log := .exit i :: s.log } rfl rfl rfl rfl
  generalize hu : Rt.schedAll (Rt.setList { s with all := s.all.filter (fun j => decide (j ≠ i)), allCount := s.allCount - 1, log := .exit i :: s.log } (.cancelQ i) []) (.cancelQ i) (s.lists (.cancelQ i)) = u at h2 f2 ⊢
  have hus : u.sco = s.sco := by rw [← hu]; simp
  have h3 : InvL (Rt.schedAll (Rt.setList u (.joinQ i) []) (.joinQ i) (u.lists (.joinQ i))) :=
    InvL.schedAll (h2.setList (nil_sub _ _)) _ _ (fun n hn => h2.ow _ n hn)
  have f3 : Free (Rt.schedAll (Rt.setList u (.joinQ i) []) (.joinQ i) (u.lists (.joinQ i))) i :=
    Free.schedAll (f2.setList (nil_sub _ _)) _ _
  split
  · exact h3.setPc f3 _
  split
  · exact h3.congr rfl (fun _ => rfl) (Nat.le_refl _) rfl
  split
  · exact h3.setPc f3 _
  · exact InvL.chanClose1 h3 f3 (by simp [hus]; exact ho) _ _ _

theorem chanRelease_frame (s : S) (c : Nat) : (chanRelease s c).lists = s.lists ∧ (chanRelease s c).co = s.co ∧
    (chanRelease s c).sco = s.sco ∧ (chanRelease s c).jobs = s.jobs := by
  unfold chanRelease; (repeat' split) <;> exact ⟨rfl, rfl, rfl, rfl⟩

theorem InvL.tauCo {s s' : S} (h : InvL s) {i : Nat} (ho : i ≤ s.sco.nextId) (hs : tauCo s i = some s') : InvL s' := by
  have hF : queued (s.co i).pc = false → Free s i := h.free
  unfold Rt.tauCo at hs
  split at hs
  case h_1 => cases hs
  case h_2 => cases hs
  case h_3 => cases hs
  case h_4 he =>
    cases hs
    have hf := hF (by rw [he]; rfl)
    unfold doRet; split
    · refine InvL.setPc ?_ ?_ _
      · exact h.congr rfl (fun _ => rfl) (Nat.le_refl _) rfl
      · exact hf
    · refine InvL.updFree ?_ ?_ _
      · exact h.congr rfl (fun _ => rfl) (Nat.le_refl _) rfl
      · exact hf
  case h_5 he =>
    have hf := hF (by rw [he]; rfl)
    (repeat' split at hs) <;> cases hs
    · refine InvL.setPc ?_ ?_ _
      · exact h.congr rfl (fun _ => rfl) (Nat.le_refl _) rfl
      · exact hf
    · exact h.setPc hf _
    · exact h.coyield hf _ _
  case h_6 he => cases hs; exact h.coyield (hF (by rw [he]; rfl)) _ _
  case h_7 a he =>
    cases hs
    have hf := hF (by rw [he]; rfl)
    cases a with
    | ret v => exact h.retv hf _
    | condEnq =>
      simp only [doAft]; split
      · exact InvL.cvEnq h hf ho _ _ _ ‹_›
      · exact h.congr rfl (fun _ => rfl) (Nat.le_refl _) rfl
    | genRel =>
      simp only [doAft]; split
      · rename_i g _
        obtain ⟨e1, e2, e3, e4⟩ := chanRelease_frame s g
        refine InvL.setPc (InvL.updFree (h.congr e1 (fun _ => by rw [e2]) (by rw [e3]; exact Nat.le_refl _) e4) ?_ _) ?_ _ <;>
          (intro L n; simp only [upd_lists, e1]; exact hf L n)
      · exact h.congr rfl (fun _ => rfl) (Nat.le_refl _) rfl
    | exitTail =>
      simp only [doAft]; split
      · exact h.yfsr hf _ _
      · exact h.setPc hf _
    | fin a =>
      simp only [doAft, doFin]
      refine h.alter' (i := i) (fun L n hn ho => ?_) (fun L => List.filter_sublist) (fun j hj => ?_) ?_ rfl
      · exact (hf.rm _) L n hn ho
      · simp [setPc_co, hj]
      · split <;> simp
  case h_8 he =>
    cases hs
    refine InvL.retv ?_ ?_ _
    · exact h.congr rfl (fun _ => rfl) (Nat.le_refl _) rfl
    · exact hF (by rw [he]; rfl)
  case h_9 b he =>
    cases hs
    obtain ⟨e1, e2, e3, e4⟩ := preBlk_frame (Rt.unpause s i) i b
    refine InvL.afterBlk ((h.unpause i).congr e1 (fun _ => by rw [e2]) (by rw [e3]; exact Nat.le_refl _) e4) ?_
    rw [e2]
    have := unpause_view s i i
    simp only [view, Prod.mk.injEq] at this
    rw [this.1]; exact he
  case h_10 he =>
    have hf := hF (by rw [he]; rfl)
    split at hs <;> cases hs
    · exact h.doCancel hf ho ‹_›
    · exact h.congr rfl (fun _ => rfl) (Nat.le_refl _) rfl
  case h_11 he =>
    have hf := hF (by rw [he]; rfl)
    split at hs <;> cases hs
    · exact h.doRelock hf ho ‹_›
    · exact h.congr rfl (fun _ => rfl) (Nat.le_refl _) rfl
  case h_12 he =>
    cases hs
    refine InvL.retv ?_ ?_ _
    · exact h.congr rfl (fun _ => rfl) (Nat.le_refl _) rfl
    · exact hF (by rw [he]; rfl)
  case h_13 a he =>
    cases hs
    have hf := hF (by rw [he]; rfl)
    unfold doExit; (repeat' split)
    · exact InvL.alter h hf rfl (fun j hj => by simp [upd_co, hj]) (Nat.le_refl _) rfl
    · exact h.exitNotify hf ho _
    · exact h.exitNotify hf ho _

theorem InvL.wakeAll {s : S} (h : InvL s) (q : List Nat) : InvL (wakeAll s q) := by
  induction q generalizing s with
  | nil => exact h
  | cons i q ih => exact ih (h.scoResume i)

theorem InvL.mEvents {s : S} (h : InvL s) (q) : InvL (mEvents s q) := by
  induction q generalizing s with
  | nil => exact h
  | cons e q ih =>
    refine ih ?_
    unfold mEvent
    refine InvL.wakeAll ?_ _
    exact h.congr rfl (fun _ => rfl) (Nat.le_refl _) rfl

theorem InvL.tauMain {s s' : S} (h : InvL s) (hs : tauMain s = some s') : InvL s' := by
  unfold Rt.tauMain at hs
  split at hs
  · (repeat' split at hs) <;> cases hs
    · exact h.congr rfl (fun _ => rfl) (Nat.le_refl _) rfl
    · have : InvL (mResume s) := by
        unfold mResume
        refine InvL.wakeAll ?_ _
        exact (h.setList (L := .resumers) (nil_sub _ _)).congr rfl (fun _ => rfl) (Nat.le_refl _) rfl
      exact this.congr rfl (fun _ => rfl) (Nat.le_refl _) rfl
    · exact h.congr rfl (fun _ => rfl) (Nat.le_refl _) rfl
  · cases hs
    have : InvL (mIo s) := by
      unfold mIo; split
      · exact InvL.wakeAll (h.setList (nil_sub _ _)) _
      · exact h
    exact this.congr rfl (fun _ => rfl) (Nat.le_refl _) rfl
  · cases hs
  · cases hs
    have : InvL (mSig s) := by
      unfold mSig; (repeat' split)
      · exact h
      · exact h.congr rfl (fun _ => rfl) (Nat.le_refl _) rfl
      · exact h
      · dsimp only
        refine InvL.scoResume ?_ _
        refine h.congr rfl ?_ (Nat.le_refl _) rfl
        intro j; simp only [note_co, upd_co]; split
        · subst_vars; rfl
        · rfl
    exact this.congr rfl (fun _ => rfl) (Nat.le_refl _) rfl
  · cases hs
    have : InvL (mDl s) := by
      unfold mDl
      refine InvL.wakeAll ?_ _
      refine h.congr rfl ?_ (Nat.le_refl _) rfl
      intro j; simp only [markDl]; split <;> rfl
    exact this.congr rfl (fun _ => rfl) (Nat.le_refl _) rfl
  · cases hs; exact h.congr rfl (fun _ => rfl) (Nat.le_refl _) rfl
  · cases hs; exact h.congr rfl (fun _ => rfl) (by simp) rfl
  · cases hs

theorem InvL.step {s s' : S} {a : Act} (h : InvL s) (hw : Sco.WF s.sco) (hs : step s a = some s') : InvL s' := by
  unfold Rt.step at hs
  split at hs
  · cases hs
  cases a with
  | call c =>
    simp only at hs
    split at hs
    · cases hs
    · rename_i i hc
      split at hs <;> cases hs
      rename_i he
      have hf := h.free (i := i) (by rw [he.1]; rfl)
      refine InvL.doCall (s := Rt.upd (note s (.call i c)) i (fun k => { k with call := c })) ?_ ?_ ?_ ?_ c ?_
      · exact InvL.alter h hf rfl (fun j hj => by simp [upd_co, hj]) (Nat.le_refl _) rfl
      · exact hf
      · exact (cur_le hw hc).2
      · exact hw
      · rw [upd_co, if_pos rfl]
  | finish =>
    simp only at hs
    split at hs
    · cases hs
    · split at hs <;> cases hs
      rename_i he
      exact h.setPc (h.free (by rw [he]; rfl)) _
  | tau =>
    simp only at hs
    split at hs
    · rename_i hc; exact h.tauCo (cur_le hw hc).2 hs
    · exact h.tauMain hs
  | submit ok =>
    simp only at hs
    split at hs
    · cases hs
    · rename_i i hc
      split at hs
      · rename_i he
        have hf := h.free (i := i) (by rw [he]; rfl)
        have ho := (cur_le hw hc).2
        split at hs <;> cases hs
        · have h1 : InvL { s with jobs := i :: s.jobs } := by
            refine ⟨h.nd, h.dj, h.pl, h.ow, ?_⟩
            intro j hj; simp at hj; rcases hj with rfl | hj
            · exact ho
            · exact h.jb j hj
          exact (InvL.setPc h1 hf _).sco (by simp)
        · exact h.sco (by simp)
      · cases hs
  | events evs =>
    simp only at hs
    split at hs
    · cases hs
      split
      · exact (h.mEvents _).congr rfl (fun _ => rfl) (Nat.le_refl _) rfl
      · exact h.congr rfl (fun _ => rfl) (Nat.le_refl _) rfl
    · cases hs
  | clock t => simp only at hs; split at hs <;> cases hs; exact h.congr rfl (fun _ => rfl) (Nat.le_refl _) rfl
  | signal n =>
    simp only at hs; (repeat' split at hs) <;> cases hs <;> exact h.congr rfl (fun _ => rfl) (Nat.le_refl _) rfl
  | wdone i =>
    simp only at hs; split at hs <;> cases hs
    rename_i hi
    refine h.push' (L := .iolist) (n := .co i) rfl trivial (fun j => .inl rfl) (h.jb i hi) (Nat.le_refl _) ?_
    intro j hj; exact List.mem_of_mem_erase hj

theorem reach_invL {ok} {s : S} (h : Reach ok s) : InvL s := by
  induction h with
  | init a e =>
    refine ⟨fun L => ?_, ?_, ?_, ?_, ?_⟩ <;> simp [init]
  | step h a hok hs ih => exact ih.step (reach_scoWF h) hs

end Neco.Rt
