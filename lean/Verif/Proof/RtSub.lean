import Verif.Proof.RtView
/-!
# A step removes from the waiting queues or appends the running coroutine
-/
namespace Neco.Rt
open Neco.Err

structure SubO (i : Nat) (s t : S) : Prop where
  h : ∀ L, L ≠ .resumers → L ≠ .iolist →
    ∃ o : List Node, (∀ n ∈ o, n.owner = i) ∧ (t.lists L).Sublist (s.lists L ++ o)

theorem SubO.of_sub {i : Nat} {s t : S} (h : ∀ L, L ≠ .resumers → L ≠ .iolist → (t.lists L).Sublist (s.lists L)) : SubO i s t :=
  ⟨fun L a b => ⟨[], by simp, by simpa using h L a b⟩⟩

theorem SubO.of_eq {i : Nat} {s t : S} (h : t.lists = s.lists) : SubO i s t :=
  SubO.of_sub (fun L _ _ => by rw [h]; exact List.Sublist.refl _)

theorem SubO.refl {i : Nat} {s : S} : SubO i s s := .of_eq rfl

theorem SubO.trans {i : Nat} {s t u : S} (h : SubO i s t) (g : SubO i t u) : SubO i s u := by
  refine ⟨fun L a b => ?_⟩
  obtain ⟨o, h1, h2⟩ := h.h L a b
  obtain ⟨p, g1, g2⟩ := g.h L a b
  refine ⟨o ++ p, ?_, ?_⟩
  · intro n hn; rcases List.mem_append.1 hn with x | x
    · exact h1 n x
    · exact g1 n x
  · refine g2.trans ?_
    rw [← List.append_assoc]
    exact h2.append (List.Sublist.refl _)

theorem SubO.left {i : Nat} {s s' t : S} (h : SubO i s t) (e : s'.lists = s.lists) : SubO i s' t := by
  refine ⟨fun L a b => ?_⟩; rw [e]; exact h.h L a b
theorem SubO.right {i : Nat} {s t t' : S} (h : SubO i s t) (e : t'.lists = t.lists) : SubO i s t' := by
  refine ⟨fun L a b => ?_⟩; rw [e]; exact h.h L a b

theorem SubO.mid {i : Nat} {s s' t t' : S} (h : SubO i s' t') (e1 : s'.lists = s.lists) (e2 : t.lists = t'.lists) : SubO i s t := by
  refine ⟨fun L a b => ?_⟩; rw [e2, ← e1]; exact h.h L a b

theorem SubO.rm {i : Nat} {s : S} (n : Node) : SubO i s (rm s n) := .of_sub (fun L _ _ => rm_sub s n L)
theorem SubO.setList {i : Nat} {s : S} {L : LName} {l : List Node} (h : l.Sublist (s.lists L)) : SubO i s (setList s L l) :=
  .of_sub (fun K _ _ => setList_sub h K)
theorem SubO.sched {i : Nat} {s : S} (r : Nat) : SubO i s (schedResume s r) := by
  refine .of_sub (fun L a _ => ?_)
  have e : (schedResume s r).lists L = (push s .resumers (.co r)).lists L := rfl
  rw [e]; simp only [push, setList_lists, if_neg a]; exact rm_sub _ _ _
theorem SubO.push {i : Nat} {s : S} (L : LName) (n : Node) (h : n.owner = i) : SubO i s (push s L n) := by
  refine ⟨fun K _ _ => ?_⟩
  refine ⟨[n], by simpa using h, ?_⟩
  simp only [Rt.push, setList_lists]; split
  · subst_vars; exact (rm_sub s n _).append (List.Sublist.refl _)
  · exact (rm_sub s n _).trans (List.sublist_append_left _ _)
theorem SubO.schedAll {i : Nat} {s : S} (L : LName) (q : List Node) : SubO i s (schedAll s L q) := by
  induction q generalizing s with
  | nil => exact .refl
  | cons n q ih => simp only [Rt.schedAll]; exact (SubO.sched n.owner).trans (ih.left (by rfl))
theorem SubO.selPush {i : Nat} {s : S} (k : Nat) (cs : List Nat) : SubO i s (selPush s i k cs) := by
  induction cs generalizing s k with
  | nil => exact .refl
  | cons c cs ih => simp only [Rt.selPush]; exact (SubO.push (i := i) (.chanQ c) (.case i k) rfl).trans ((ih (k + 1)).left (by rfl))

theorem sub_nil {s : S} {L : LName} : SubO i s (setList s L []) := .setList (nil_sub _ _)

theorem bcastLoop_sub {i : Nat} {s : S} (c : Nat) (m : Msg) (q : List Node) (hq : q.Sublist (s.lists (.chanQ c))) :
    SubO i s (bcastLoop s c m q).1 := by
  suffices h : ∀ s : S, SubO i (setList s (.chanQ c) q) (bcastLoop s c m q).1 from (SubO.setList hq).trans (h s)
  clear hq s
  intro s
  induction q generalizing s with
  | nil => simp only [bcastLoop]; exact .refl
  | cons n q ih =>
    have hs : q.Sublist ((setList s (.chanQ c) (n :: q)).lists (.chanQ c)) := by
      simp only [setList_lists, if_true]; exact List.sublist_cons_self _ _
    have hstep : ∀ (t : S) (r : Nat), t.lists = (setList s (.chanQ c) q).lists →
        SubO i (setList s (.chanQ c) (n :: q)) (bcastLoop (schedResume t r) c m q).1 := by
      intro t r e
      have h0 : SubO i (setList s (.chanQ c) (n :: q)) t := by
        refine (SubO.setList hs).right ?_
        rw [e]; funext K; simp only [setList_lists]; split <;> rfl
      refine SubO.trans h0 (SubO.trans (?_ : SubO i t (setList (schedResume t r) (.chanQ c) q)) (ih _))
      refine ⟨fun L a b => ?_⟩
      refine ⟨[], by simp, ?_⟩
      rw [setList_lists]; split
      · subst_vars; rw [e, setList_lists, if_pos rfl]; simp
      · obtain ⟨o, ho, h⟩ := (SubO.sched (i := i) (s := t) r).h L a b
        have e2 : (schedResume t r).lists L = (push t .resumers (.co r)).lists L := rfl
        rw [e2]; simp only [push, setList_lists, if_neg a, List.append_nil]; exact rm_sub _ _ _
    cases n with
    | co r => simp only [bcastLoop]; exact hstep _ r rfl
    | case r idx =>
      simp only [bcastLoop]; split
      · refine SubO.trans (SubO.setList hs) ((ih s).left ?_)
        funext K; simp only [setList_lists]; split <;> rfl
      · exact hstep _ r rfl

theorem closeLoop_sub {i : Nat} {s : S} (c : Nat) (q : List Node) (hq : q.Sublist (s.lists (.chanQ c))) :
    SubO i s (closeLoop s c q) := by
  suffices h : ∀ s : S, SubO i (setList s (.chanQ c) q) (closeLoop s c q) from (SubO.setList hq).trans (h s)
  clear hq s
  intro s
  induction q generalizing s with
  | nil => simp only [closeLoop]; exact .refl
  | cons n q ih =>
    have hs : q.Sublist ((setList s (.chanQ c) (n :: q)).lists (.chanQ c)) := by
      simp only [setList_lists, if_true]; exact List.sublist_cons_self _ _
    have hstep : ∀ (t : S) (r : Nat), t.lists = (setList s (.chanQ c) q).lists →
        SubO i (setList s (.chanQ c) (n :: q)) (closeLoop (schedResume t r) c q) := by
      intro t r e
      have h0 : SubO i (setList s (.chanQ c) (n :: q)) t := by
        refine (SubO.setList hs).right ?_
        rw [e]; funext K; simp only [setList_lists]; split <;> rfl
      refine SubO.trans h0 (SubO.trans (?_ : SubO i t (setList (schedResume t r) (.chanQ c) q)) (ih _))
      refine ⟨fun L a b => ?_⟩
      refine ⟨[], by simp, ?_⟩
      rw [setList_lists]; split
      · subst_vars; rw [e, setList_lists, if_pos rfl]; simp
      · have e2 : (schedResume t r).lists L = (push t .resumers (.co r)).lists L := rfl
        rw [e2]; simp only [push, setList_lists, if_neg a, List.append_nil]; exact rm_sub _ _ _
    cases n with
    | co r => simp only [closeLoop]; exact hstep _ r rfl
    | case r idx =>
      simp only [closeLoop]; split
      · refine SubO.trans (SubO.setList hs) ((ih s).left ?_)
        funext K; simp only [setList_lists]; split <;> rfl
      · exact hstep _ r rfl

theorem handoff_sub {i : Nat} {s : S} (m : Nat) (q : List Node) (hq : q.Sublist (s.lists (.muQ m))) :
    SubO i s (handoff s m q) := by
  suffices h : ∀ s : S, SubO i (setList s (.muQ m) q) (handoff s m q) ∨ (∀ s' : S, s'.lists = s.lists → q = [] ) from by
    rcases h s with h | h
    · exact (SubO.setList hq).trans h
    · have := h s rfl; subst this; exact .refl
  clear hq s
  intro s
  induction q generalizing s with
  | nil => right; intros; rfl
  | cons n q ih =>
    left
    have hs : q.Sublist ((setList s (.muQ m) (n :: q)).lists (.muQ m)) := by
      simp only [setList_lists, if_true]; exact List.sublist_cons_self _ _
    have h0 : SubO i (setList s (.muQ m) (n :: q)) (setList s (.muQ m) q) := by
      refine (SubO.setList hs).right ?_
      funext K; simp only [setList_lists]; split <;> rfl
    have h1 : SubO i (setList s (.muQ m) (n :: q)) (schedResume (setList s (.muQ m) q) n.owner) := h0.trans (.sched _)
    unfold handoff; dsimp only
    split
    · cases q with
      | nil => exact h1.right rfl
      | cons n' q' =>
        dsimp only; split
        · rename_i hr _
          refine SubO.trans h0 (SubO.trans (?_ : SubO i _ (setList (schedResume (setList s (.muQ m) (n' :: q')) n.owner) (.muQ m) (n' :: q'))) ?_)
          · refine ⟨fun L a b => ?_⟩
            refine ⟨[], by simp, ?_⟩
            rw [setList_lists]; split
            · subst_vars; rw [setList_lists, if_pos rfl]; simp
            · have e2 : (schedResume (setList s (.muQ m) (n' :: q')) n.owner).lists L = (push (setList s (.muQ m) (n' :: q')) .resumers (.co n.owner)).lists L := rfl
              rw [e2, List.append_nil]; simp only [push]
              rw [setList_lists, if_neg a]; exact rm_sub _ _ _
          · rcases ih (note (setMu (schedResume (setList s (.muQ m) (n' :: q')) n.owner) m
              { (schedResume (setList s (.muQ m) (n' :: q')) n.owner).mu m with
                rlocked := ((schedResume (setList s (.muQ m) (n' :: q')) n.owner).mu m).rlocked + 1 }) (.grant m n.owner true)) with h | h
            · exact h.left rfl
            · exact absurd (h _ rfl) (by simp)
        · exact h1.right rfl
    · exact h1.right rfl

theorem fastUnlock_sub {i : Nat} (s : S) (m : Nat) : SubO i s (fastUnlock s m) := by
  unfold fastUnlock; dsimp only; (repeat' split)
  · exact .refl
  · exact .of_eq rfl
  · exact .of_eq rfl
  · exact (handoff_sub (s := setMu s m { s.mu m with rlocked := 0 }) m _ (List.Sublist.refl _)).left rfl

theorem recvNow_subO {i : Nat} {s : S} {c r : Nat} {ch : Chan} {m : Msg} {o : Option Nat} {t : S}
    (h : recvNow s c r ch = some (m, o, t)) : SubO i s t := .of_sub (fun L _ _ => recvNow_sub h L)

theorem chanSend_subO (s : S) (i c : Nat) (m : Msg) (dl : Int) : SubO i s (chanSend s i c m dl) := by
  unfold chanSend; dsimp only
  have h : ∀ ch, SubO i s (sendTry (note s (.put c i m)) c m ch).1 := fun ch =>
    .of_sub (fun L _ _ => sendTry_sub (note s (.put c i m)) c m ch L)
  (repeat' split)
  · exact .of_eq rfl
  · exact .of_eq rfl
  · exact .of_eq rfl
  · exact (h _).right rfl
  · rename_i ch _ _ _ _ _; refine (h ch).trans ?_
    unfold sendRest; dsimp only; split
    · exact .of_eq rfl
    · exact (SubO.push (.chanQ c) (.co i) rfl).right (by simp)

theorem chanBcast_subO (s : S) (i c : Nat) (m : Msg) : SubO i s (chanBcast s i c m) := by
  unfold chanBcast; dsimp only; (repeat' split)
  · exact .of_eq rfl
  · exact .of_eq rfl
  · refine SubO.right (t := (bcastTry s c m _).1) ?_ (by simp; rfl)
    unfold bcastTry; split
    · exact bcastLoop_sub c m _ (List.Sublist.refl _)
    · exact .refl

theorem chanRecv_subO (s : S) (i c : Nat) (t : Bool) (dl : Int) : SubO i s (chanRecv s i c t dl) := by
  unfold chanRecv; dsimp only; (repeat' split)
  · exact .of_eq rfl
  · exact .of_eq rfl
  · exact .of_eq rfl
  · rename_i hr
    exact (recvNow_subO hr).right (by simp)
  · exact .of_eq rfl
  · exact (SubO.push (.chanQ c) (.co i) rfl).right (by simp)

theorem chanClose1_subO (s : S) (i c : Nat) (ch : Chan) (a : Aft) : SubO i s (chanClose1 s i c ch a) := by
  unfold chanClose1; dsimp only; split
  · exact .of_eq rfl
  · exact SubO.mid (closeLoop_sub (s := setChan s c { ch with sclosed := true }) c _ (List.Sublist.refl _)) (by rfl) (by simp)

theorem chanSelect_subO (s : S) (i : Nat) (cs : List Nat) (t : Bool) (dl : Int) : SubO i s (chanSelect s i cs dl t) := by
  unfold chanSelect; dsimp only; (repeat' split)
  · exact .of_eq rfl
  · exact .of_eq rfl
  · exact .of_eq rfl
  · exact .of_eq rfl
  · rename_i hr
    exact (recvNow_subO hr).right (by simp)
  · exact .of_eq rfl
  · exact .of_eq rfl
  · exact SubO.mid (SubO.selPush (s := upd s i (fun k => { k with retIdx := -1 })) 0 cs) (by rfl) (by simp)

theorem finishLock_subO (s : S) (i m : Nat) (rd : Bool) (dl : Int) (b : Blk) : SubO i s (finishLock s i m rd dl b) :=
  SubO.mid (SubO.push (i := i) (s := upd s i (fun k => { k with rlocked := rd })) (.muQ m) (.co i) rfl) (by rfl) (by simp [finishLock])

theorem cvEnq_subO (s : S) (i v : Nat) (dl : Int) : SubO i s (cvEnq s i v dl) :=
  (SubO.push (.cvQ v) (.co i) rfl).right (by simp [cvEnq])

theorem doCall_subO (s : S) (i : Nat) (c : Call) : SubO i s (doCall s i c) := by
  cases c <;> simp only [doCall]
  case start => exact .of_eq rfl
  case genStart => exact .of_eq rfl
  case sleep => unfold doSleep; split <;> exact .of_eq (by simp)
  case join id dl =>
    unfold doJoin; dsimp only; (repeat' split) <;> first | exact .of_eq rfl | skip
    exact ((SubO.push (s := dlClear s i) (.joinQ id) (.co i) rfl).left (by simp)).right (by simp)
  case suspend => unfold doSuspend; exact .of_eq (by simp)
  case resume => unfold doResume; (repeat' split) <;> exact .of_eq rfl
  case send => exact chanSend_subO ..
  case bcast => exact chanBcast_subO ..
  case recv => exact chanRecv_subO ..
  case tryrecv => exact chanRecv_subO ..
  case close =>
    unfold chanClose; (repeat' split)
    · exact .of_eq rfl
    · exact .of_eq rfl
    · exact chanClose1_subO ..
  case select => exact chanSelect_subO ..
  case tryselect => exact chanSelect_subO ..
  case genYield =>
    unfold doGenYield; split
    · exact .of_eq rfl
    · exact chanSend_subO ..
  case lock =>
    unfold muLock; dsimp only; (repeat' split) <;> first | exact .of_eq rfl | exact (finishLock_subO ..).left rfl
  case rdlock =>
    unfold muRdlock; dsimp only; (repeat' split) <;> first | exact .of_eq rfl | exact (finishLock_subO ..).left rfl
  case unlock m =>
    unfold muUnlock; split <;> exact SubO.mid (fastUnlock_sub (note s (.release m i)) m) (by rfl) (by simp)
  case trylock => unfold muTrylock; split <;> exact .of_eq rfl
  case tryrdlock => unfold muTryrdlock; split <;> exact .of_eq rfl
  case wgAdd => unfold wgAdd; dsimp only; (repeat' split) <;> exact .of_eq rfl
  case wgDone w =>
    unfold wgDone; dsimp only; (repeat' split)
    · exact .of_eq rfl
    · exact .of_eq rfl
    · exact SubO.mid (sub_nil (s := setWg s w (s.wg w - 1)) (L := .wgQ w)) (by rfl) (by rfl)
    · exact SubO.mid ((sub_nil (s := setWg s w (s.wg w - 1)) (L := .wgQ w)).trans (.schedAll (.wgQ w) ((setWg s w (s.wg w - 1)).lists (.wgQ w)))) (by rfl) (by simp)
    · exact .of_eq rfl
  case wgWait w dl =>
    unfold wgWait; dsimp only; (repeat' split) <;> first | exact .of_eq rfl | skip
    exact ((SubO.push (s := dlClear s i) (.wgQ w) (.co i) rfl).left (by simp)).right (by simp)
  case cvSignal v =>
    unfold cvSignal; split
    · exact .of_eq rfl
    · rename_i hq
      exact (SubO.setList (by rw [hq]; exact List.sublist_cons_self _ _)).right rfl
  case cvBcast v =>
    unfold cvBcast
    exact ((sub_nil (s := s) (L := .cvQ v)).trans (.schedAll (.cvQ v) (s.lists (.cvQ v)))).right (by simp)
  case cvWait v m dl =>
    unfold cvWait; (repeat' split)
    · exact .of_eq rfl
    · exact SubO.mid (fastUnlock_sub (note s (.release m i)) m) (by rfl) (by simp)
    · exact SubO.mid ((fastUnlock_sub (note s (.release m i)) m).trans (cvEnq_subO ..)) (by rfl) (by rfl)
  case sigWait dl =>
    unfold doSigWait; dsimp only; (repeat' split) <;> first | exact .of_eq rfl | skip
    exact (SubO.push (s := s) .sigQ (.co i) rfl).right (by simp; rfl)
  case sigWatch => unfold doSigWatch; dsimp only; (repeat' split) <;> exact .of_eq rfl
  case sigUnwatch => unfold doSigUnwatch; dsimp only; (repeat' split) <;> exact .of_eq rfl
  case wait => unfold doWait; dsimp only; exact .of_eq (by simp)
  case chRetain => split <;> exact .of_eq rfl
  case chCase => unfold chanCase; (repeat' split) <;> exact .of_eq rfl
  case cpop => unfold doCpop; dsimp only; (repeat' split) <;> exact .of_eq rfl
  all_goals exact .of_eq (by simp)

theorem afterBlk_subO (s : S) (i : Nat) (b : Blk) : SubO i s (afterBlk s i b) := by
  cases b <;> simp only [afterBlk] <;> (repeat' split) <;> first
    | exact .of_eq rfl
    | exact (SubO.rm (.co i)).right rfl
    | exact (SubO.of_sub (fun L _ _ => selRm_sub s i L)).right rfl

theorem exitNotify_subO (s : S) (i : Nat) (a : Bool) : SubO i s (exitNotify s i a) := by
  have h1 : ∀ (t : S) (L : LName) (q : List Node), SubO i t (schedAll (setList t L []) L q) := fun t L q =>
    (sub_nil (s := t) (L := L)).trans (.schedAll _ _)
  unfold exitNotify; dsimp only
  have h0 : SubO i s { s with all := s.all.filter (fun j => decide (j ≠ i)), allCount := s.allCount - 1, log := .exit i :: s.log } := .of_eq rfl
  refine h0.trans ?_; clear h0
  rw [show s.lists (.cancelQ i) = ({ s with all := s.all.filter (fun j => decide (j ≠ i)), allCount := s.allCount - 1, log := .exit i :: s.log } : S).lists (.cancelQ i) from rfl]
  generalize ({ s with all := s.all.filter (fun j => decide (j ≠ i)), allCount := s.allCount - 1, log := .exit i :: s.log } : S) = s0
  refine SubO.trans (h1 s0 (.cancelQ i) (s0.lists (.cancelQ i))) ?_
  generalize schedAll (setList s0 (.cancelQ i) []) (.cancelQ i) (s0.lists (.cancelQ i)) = t1
  refine SubO.trans (h1 t1 (.joinQ i) (t1.lists (.joinQ i))) ?_
  generalize schedAll (setList t1 (.joinQ i) []) (.joinQ i) (t1.lists (.joinQ i)) = t2
  (repeat' split)
  · exact .of_eq rfl
  · exact .of_eq rfl
  · exact .of_eq rfl
  · exact chanClose1_subO ..

theorem tauCo_subO {s s' : S} {i : Nat} (h : tauCo s i = some s') : SubO i s s' := by
  unfold tauCo at h
  split at h
  case h_1 => cases h
  case h_2 => cases h
  case h_3 => cases h
  case h_4 => cases h; unfold doRet; split <;> exact .of_eq rfl
  case h_5 => (repeat' split at h) <;> cases h <;> exact .of_eq rfl
  case h_6 => cases h; exact .of_eq rfl
  case h_7 a _ =>
    cases h
    cases a with
    | ret v => exact .of_eq rfl
    | condEnq => simp only [doAft]; split <;> first | exact .of_eq rfl | exact cvEnq_subO ..
    | genRel =>
      simp only [doAft]; split
      · exact .of_eq (chanRelease_frame s _).1
      · exact .of_eq rfl
    | exitTail => simp only [doAft]; split <;> exact .of_eq (by simp)
    | fin a => simp only [doAft, doFin]; exact (SubO.rm (.co i)).right rfl
  case h_8 => cases h; exact .of_eq rfl
  case h_9 b _ =>
    cases h
    exact (afterBlk_subO _ i b).left (by rw [(preBlk_frame (unpause s i) i b).1]; simp)
  case h_10 =>
    (split at h) <;> cases h
    · rename_i id dl _
      unfold doCancel; dsimp only; (repeat' split) <;> first | exact .of_eq rfl | skip
      exact (SubO.push (s := s) (.cancelQ id) (.co i) rfl).right (by simp; rfl)
    · exact .of_eq rfl
  case h_11 =>
    (split at h) <;> cases h
    · unfold doRelock; (repeat' split) <;> first | exact .of_eq rfl | exact (finishLock_subO ..).left rfl
    · exact .of_eq rfl
  case h_12 => cases h; exact .of_eq rfl
  case h_13 a _ =>
    cases h
    unfold doExit; (repeat' split)
    · exact .of_eq rfl
    · exact exitNotify_subO ..
    · exact exitNotify_subO ..

theorem step_subO {s s' : S} {a : Act} (h : step s a = some s') {L : LName} (h1 : L ≠ .resumers) (h2 : L ≠ .iolist) :
    ∃ o : List Node, (∀ n ∈ o, s.sco.cur = some n.owner) ∧ (s'.lists L).Sublist (s.lists L ++ o) := by
  have key : ∀ i, s.sco.cur = some i → SubO i s s' → ∃ o : List Node, (∀ n ∈ o, s.sco.cur = some n.owner) ∧ (s'.lists L).Sublist (s.lists L ++ o) := by
    intro i hc hs
    obtain ⟨o, ho, h3⟩ := hs.h L h1 h2
    exact ⟨o, fun n hn => by rw [ho n hn, hc], h3⟩
  have key0 : (s'.lists L).Sublist (s.lists L) → ∃ o : List Node, (∀ n ∈ o, s.sco.cur = some n.owner) ∧ (s'.lists L).Sublist (s.lists L ++ o) :=
    fun h => ⟨[], by simp, by simpa using h⟩
  unfold step at h
  split at h
  · cases h
  cases a with
  | call c =>
    simp only at h
    split at h
    · cases h
    · rename_i i hc
      split at h <;> cases h
      exact key i hc ((doCall_subO _ i c).left rfl)
  | finish =>
    simp only at h
    split at h
    · cases h
    · split at h <;> cases h; exact key0 (List.Sublist.refl _)
  | tau =>
    simp only at h
    split at h
    · rename_i i hc; exact key i hc (tauCo_subO h)
    · refine key0 ?_
      unfold tauMain at h
      split at h
      · (repeat' split at h) <;> cases h
        · exact List.Sublist.refl _
        · simp only [mResume, wakeAll_lists, setList_lists, if_neg h1]; exact List.Sublist.refl _
        · exact List.Sublist.refl _
      · cases h
        unfold mIo; split
        · simp only [wakeAll_lists, setList_lists, if_neg h2]; exact List.Sublist.refl _
        · exact List.Sublist.refl _
      · cases h
      · cases h; simp
      · cases h; simp
      · cases h; simp
      · cases h; exact List.Sublist.refl _
      · cases h
  | submit ok =>
    simp only at h
    split at h
    · cases h
    · (repeat' split at h) <;> cases h <;> exact key0 (List.Sublist.refl _)
  | events evs =>
    simp only at h
    split at h
    · cases h; refine key0 ?_; split <;> simp
    · cases h
  | clock t => simp only at h; split at h <;> cases h; exact key0 (List.Sublist.refl _)
  | signal n => simp only at h; (repeat' split at h) <;> cases h <;> exact key0 (List.Sublist.refl _)
  | wdone i =>
    simp only at h; split at h <;> cases h
    refine key0 ?_
    simp only [push, setList_lists, if_neg h2]
    exact rm_sub _ _ _

/-- the queue only shrinks unless the running coroutine enters it -/
theorem step_sub {s s' : S} {a : Act} (h : step s a = some s') {L : LName} (h1 : L ≠ .resumers) (h2 : L ≠ .iolist)
    (hn : ∀ n ∈ s'.lists L, s.sco.cur ≠ some n.owner) : (s'.lists L).Sublist (s.lists L) := by
  obtain ⟨o, ho, hs⟩ := step_subO h h1 h2
  have h3 := hs.filter (fun n => decide (s.sco.cur ≠ some n.owner))
  rw [List.filter_append] at h3
  have e1 : o.filter (fun n => decide (s.sco.cur ≠ some n.owner)) = [] := by
    rw [List.filter_eq_nil_iff]; intro n hn'; simpa using ho n hn'
  have e2 : (s'.lists L).filter (fun n => decide (s.sco.cur ≠ some n.owner)) = s'.lists L := by
    rw [List.filter_eq_self]; intro n hn'; simpa using hn n hn'
  rw [e1, e2, List.append_nil] at h3
  exact h3.trans List.filter_sublist

end Neco.Rt
