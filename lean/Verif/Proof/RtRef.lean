import Verif.Proof.RtGen4
import Verif.Proof.RtCancel3
import Verif.Proof.RtWg
import Verif.Proof.RtPend
import Verif.Spec.Legal
/-!
# Reference counts of channels
-/
namespace Neco.Rt
open Neco.Err

/-- the channels are the same ones, with the same reference counts -/
def RcSame (s t : S) : Prop := ∀ k, (t.chan k).map Chan.rc = (s.chan k).map Chan.rc

theorem RcSame.refl (s : S) : RcSame s s := fun _ => rfl
theorem RcSame.trans {s t u : S} (h : RcSame s t) (g : RcSame t u) : RcSame s u := fun k => (g k).trans (h k)
theorem RcSame.same {s t : S} (h : t.chan = s.chan) : RcSame s t := fun k => by rw [h]
theorem RcSame.post {s t u : S} (h : RcSame s t) (g : u.chan = t.chan) : RcSame s u := h.trans (.same g)
theorem RcSame.set {s t : S} {c : Nat} {ch ch' : Chan} (h : RcSame s t) (hc : s.chan c = some ch) (he : ch'.rc = ch.rc) : RcSame s (setChan t c ch') := by
  intro k
  simp only [setChan]
  split
  · rename_i hk; subst hk; rw [hc]; simp [he]
  · exact h k
theorem RcSame.upd {s t : S} {c : Nat} {f : Chan → Chan} (h : RcSame s t) (hf : ∀ x, (f x).rc = x.rc) {u : S} (hu : u.chan = fun k => if k = c then (t.chan c).map f else t.chan k) : RcSame s u := by
  refine h.trans fun k => ?_
  rw [hu]; dsimp only
  split
  · rename_i hk; subst hk
    cases hx : t.chan k with
    | none => rfl
    | some y => simp [hf]
  · rfl

theorem sendLoop_rc (s : S) (c : Nat) (m : Msg) (q : List Node) : RcSame s (sendLoop s c m q).1 := by
  induction q with
  | nil => exact .same rfl
  | cons n q ih =>
    cases n with
    | co r => exact .same rfl
    | case r idx =>
      simp only [sendLoop]; split
      · exact ih
      · exact (RcSame.refl s).upd (c := c) (f := fun ch => { ch with lok := true, lmsg := m }) (fun _ => rfl) rfl
theorem bcastLoop_rc (s : S) (c : Nat) (m : Msg) (q : List Node) : RcSame s (bcastLoop s c m q).1 := by
  induction q generalizing s with
  | nil => exact .same rfl
  | cons n q ih =>
    cases n with
    | co r => exact RcSame.trans (.same rfl) (ih _)
    | case r idx =>
      simp only [bcastLoop]; split
      · exact ih s
      · exact ((RcSame.refl s).upd (c := c) (f := fun ch => { ch with lok := true, lmsg := m }) (fun _ => rfl) rfl).trans (ih _)
theorem closeLoop_rc (s : S) (c : Nat) (q : List Node) : RcSame s (closeLoop s c q) := by
  induction q generalizing s with
  | nil => exact .same rfl
  | cons n q ih =>
    cases n with
    | co r => exact RcSame.trans (.same rfl) (ih _)
    | case r idx =>
      simp only [closeLoop]; split
      · exact ih s
      · exact ((RcSame.refl s).upd (c := c) (f := fun ch => { ch with lok := false }) (fun _ => rfl) rfl).trans (ih _)

theorem chanSend_rc (s : S) (i c : Nat) (m : Msg) (dl : Int) : RcSame s (chanSend s i c m dl) := by
  unfold chanSend
  split
  · exact .same rfl
  rename_i ch hc
  split
  · exact .same rfl
  split
  · exact .same rfl
  have h1 : RcSame s (sendTry (note s (.put c i m)) c m ch).1 := by
    unfold sendTry; split
    · exact RcSame.trans (.same rfl) (sendLoop_rc _ _ _ _)
    · exact .same rfl
  dsimp only
  split
  · exact h1.post (by simp)
  · unfold sendRest; split
    · exact (h1.set (ch' := { ch with buf := ch.buf ++ [m] }) hc rfl).post (by simp)
    · exact ((h1.post (u := push (sendTry (note s (.put c i m)) c m ch).1 (.chanQ c) (.co i)) (by simp)).set (ch' := { ch with qrecv := false }) hc rfl).post (by simp)
theorem chanBcast_rc (s : S) (i c : Nat) (m : Msg) : RcSame s (chanBcast s i c m) := by
  unfold chanBcast
  split
  · exact .same rfl
  split
  · exact .same rfl
  · refine RcSame.post (t := (bcastTry s c m _).1) ?_ (by simp; rfl)
    unfold bcastTry; split
    · exact bcastLoop_rc _ _ _ _
    · exact .refl s
theorem recvNow_rc {s t : S} {c r : Nat} {ch : Chan} {m : Msg} {o : Option Nat} (hc : s.chan c = some ch) (h : recvNow s c r ch = some (m, o, t)) : RcSame s t := by
  unfold recvNow at h
  (repeat' split at h) <;> first
    | (simp at h; done)
    | (simp at h; obtain ⟨_, _, rfl⟩ := h; first | exact .same rfl | (refine ((RcSame.refl s).set hc ?_).post rfl; rfl) | (refine ((RcSame.same (s := s) (t := setList s _ _) rfl).set hc ?_).post rfl; rfl))
theorem chanRecv_rc (s : S) (i c : Nat) (t : Bool) (dl : Int) : RcSame s (chanRecv s i c t dl) := by
  unfold chanRecv
  split
  · exact .same rfl
  rename_i ch hc
  split
  · exact .same rfl
  split
  · exact .same rfl
  split
  · rename_i h; exact (recvNow_rc hc h).post (by simp)
  · split
    · exact .same rfl
    · exact ((RcSame.same (s := s) (t := push s (.chanQ c) (.co i)) (by simp)).set (ch' := { ch with qrecv := true }) hc rfl).post (by simp)
theorem chanClose1_rc (s : S) (i c : Nat) {ch : Chan} (hc : s.chan c = some ch) (a : Aft) : RcSame s (chanClose1 s i c ch a) := by
  unfold chanClose1; dsimp only
  have h1 : RcSame s (setChan s c { ch with sclosed := true }) := (RcSame.refl s).set hc rfl
  split
  · exact h1.post rfl
  · refine RcSame.post (t := closeEnd (closeLoop _ c _) c) ?_ (by simp; rfl)
    exact (h1.trans (closeLoop_rc _ _ _)).upd (c := c) (f := fun ch => { ch with rclosed := true, qrecv := false }) (fun _ => rfl) rfl
theorem chanSelect_rc (s : S) (i : Nat) (cs : List Nat) (t : Bool) (dl : Int) : RcSame s (chanSelect s i cs dl t) := by
  unfold chanSelect
  split
  · exact .same rfl
  split
  · exact .same rfl
  split
  · split
    · exact .same rfl
    rename_i ch hc
    split
    · exact .same rfl
    split
    · rename_i c _ _ _ _ m o u h
      refine RcSame.post (t := { u with chan := fun j => if j = c then (u.chan c).map (fun ch => { ch with lmsg := m }) else u.chan j }) ?_ (by simp)
      exact (recvNow_rc hc h).upd (c := c) (f := fun ch => { ch with lmsg := m }) (fun _ => rfl) rfl
    · exact .same rfl
  · split
    · exact .same rfl
    · refine RcSame.post (t := selPush (Rt.upd s i (fun k => { k with retIdx := -1 })) i 0 cs) ?_ (by simp)
      intro k
      rw [selPush_chan]
      split
      · cases hx : s.chan k <;> simp [hx]
      · rfl
theorem exitNotify_rc (s : S) (i : Nat) (a : Bool) : RcSame s (exitNotify s i a) := by
  unfold exitNotify
  extract_lets t1 qc t2 qj t3 sched
  have hch : t3.chan = s.chan := by simp [t3, t2, t1]
  have h3 : RcSame s t3 := .same hch
  split
  · exact h3.post rfl
  split
  · exact h3.post rfl
  split
  · exact h3.post rfl
  · rename_i hc _; exact h3.trans (chanClose1_rc _ _ _ hc _)

theorem tauCo_rc {s s' : S} {i : Nat} (h : tauCo s i = some s') (h1 : ∀ a b, (s.co i).pc ≠ .go (.genRel a b)) : RcSame s s' := by
  unfold tauCo at h
  split at h
  case h_1 => cases h
  case h_2 => cases h
  case h_3 => cases h
  case h_4 => cases h; unfold doRet; split <;> exact .same rfl
  case h_5 => (repeat' split at h) <;> cases h <;> exact .same rfl
  case h_6 => cases h; exact .same rfl
  case h_7 a hp =>
    cases h
    cases a with
    | ret v => exact .same rfl
    | condEnq => simp only [doAft]; split <;> first | exact .same rfl | exact .same (by simp)
    | genRel a b => exact absurd hp (h1 a b)
    | exitTail => simp only [doAft]; split <;> exact .same (by simp)
    | fin a => exact .same (by simp [doAft])
  case h_8 k c v _ =>
    cases h
    exact (RcSame.refl s).upd (c := c) (f := fun ch => { ch with lok := decide (v = OK) }) (fun _ => rfl) rfl
  case h_9 b _ => cases h; cases b <;> simp only [afterBlk] <;> (repeat' split) <;> exact .same (by simp)
  case h_10 => (split at h) <;> cases h <;> exact .same (by simp)
  case h_11 => (split at h) <;> cases h <;> exact .same (by simp)
  case h_12 => cases h; exact .same rfl
  case h_13 => cases h; unfold doExit; (repeat' split) <;> first | exact .same rfl | exact exitNotify_rc _ _ _

/-- how a step changes the reference counts -/
inductive RcStep (s : S) (a : Act) (s' : S) : Prop
  | same (h : RcSame s s') (ha : ∀ i c, a = .call c → s.sco.cur = some i → (∀ k, c ≠ .chMake k) ∧ c ≠ .genStart ∧ (∀ k, c ≠ .chRetain k) ∧ ∀ k, c ≠ .chRelease k)
      (hp : ∀ i x y, a = .tau → s.sco.cur = some i → (s.co i).pc ≠ .go (.genRel x y))
  | make (i cap : Nat) (hc : s.sco.cur = some i) (ha : a = .call (.chMake cap)) (h : s'.chan = fun k => if k = s.nchan then some { cap := cap } else s.chan k)
  | gen (i : Nat) (hc : s.sco.cur = some i) (ha : a = .call .genStart) (h : s'.chan = fun k => if k = s.nchan then some { rc := 1 } else s.chan k)
  | retain (i c : Nat) (hc : s.sco.cur = some i) (ha : a = .call (.chRetain c)) (h : s' = doCall (callSt s i (.chRetain c)) i (.chRetain c))
  | release (i c : Nat) (hc : s.sco.cur = some i) (ha : a = .call (.chRelease c)) (h : s' = doCall (callSt s i (.chRelease c)) i (.chRelease c))
  | genRel (i : Nat) (x y : Bool) (hc : s.sco.cur = some i) (ha : a = .tau) (hp : (s.co i).pc = .go (.genRel x y)) (h : s' = doAft s i (.genRel x y))

theorem step_rc {s s' : S} {a : Act} (hs : step s a = some s') : RcStep s a s' := by
  have keep : RcSame s s' → (∀ c, a ≠ .call c) → a ≠ .tau → RcStep s a s' := fun h h1 h2 => .same h (fun _ c e _ => absurd e (h1 c)) (fun _ _ _ e _ => absurd e h2)
  have hs0 := hs
  unfold Rt.step at hs
  split at hs
  · cases hs
  cases a with
  | call c =>
    simp only at hs
    split at hs
    · cases hs
    rename_i i hc
    split at hs <;> cases hs
    by_cases h1 : ∃ cap, c = .chMake cap
    · obtain ⟨cap, rfl⟩ := h1; exact .make i cap hc rfl rfl
    by_cases h2 : c = .genStart
    · subst h2; exact .gen i hc rfl rfl
    by_cases h3 : ∃ k, c = .chRetain k
    · obtain ⟨k, rfl⟩ := h3; exact .retain i k hc rfl rfl
    by_cases h4 : ∃ k, c = .chRelease k
    · obtain ⟨k, rfl⟩ := h4; exact .release i k hc rfl rfl
    refine .same ?_ (fun _ _ e _ => by cases e; exact ⟨fun k e => h1 ⟨k, e⟩, h2, fun k e => h3 ⟨k, e⟩, fun k e => h4 ⟨k, e⟩⟩) (fun _ _ _ e _ => by cases e)
    refine RcSame.trans (t := callSt s i c) (.same rfl) ?_
    show RcSame _ (doCall (callSt s i c) i c)
    generalize callSt s i c = t
    by_cases hn : c.noChan = true
    · exact .same (doCall_chan _ _ _ hn)
    · cases c <;> first | exact absurd rfl h2 | exact absurd ⟨_, rfl⟩ h1 | exact absurd ⟨_, rfl⟩ h3 | exact absurd ⟨_, rfl⟩ h4 | (simp [Call.noChan] at hn; done) | simp only [doCall]
      · exact chanSend_rc _ _ _ _ _
      · exact chanBcast_rc _ _ _ _
      · exact chanRecv_rc _ _ _ _ _
      · exact chanRecv_rc _ _ _ _ _
      · unfold chanClose; (repeat' split)
        · exact .same rfl
        · exact .same rfl
        · exact chanClose1_rc _ _ _ (by assumption) _
      · exact chanSelect_rc _ _ _ _ _
      · exact chanSelect_rc _ _ _ _ _
      · unfold doGenYield; split
        · exact .same rfl
        · exact chanSend_rc _ _ _ _ _
  | finish => simp only at hs; (repeat' split at hs) <;> cases hs <;> exact keep (.same rfl) (by simp) (by simp)
  | tau =>
    simp only at hs
    split at hs
    · rename_i i hc
      by_cases h1 : ∃ x y, (s.co i).pc = .go (.genRel x y)
      · obtain ⟨x, y, hp⟩ := h1
        unfold tauCo at hs; rw [hp] at hs; simp only [Option.some.injEq] at hs
        exact .genRel i x y hc rfl hp hs.symm
      · refine .same (tauCo_rc hs (fun x y e => h1 ⟨x, y, e⟩)) (by simp) (fun j x y _ hj hp => ?_)
        rw [hc] at hj; cases hj; exact h1 ⟨x, y, hp⟩
    · rename_i hc
      obtain ⟨e1, e2, e3⟩ := tauMain_Q hs
      exact .same (.same e2) (by simp) (fun j x y _ hj hp => by rw [hc] at hj; cases hj)
  | submit ok => simp only at hs; (repeat' split at hs) <;> cases hs <;> exact keep (.same rfl) (by simp) (by simp)
  | events evs =>
    simp only at hs; split at hs <;> cases hs
    refine keep (.same ?_) (by simp) (by simp)
    show (if s.nevwaiters > 0 then mEvents s evs else s).chan = _; split <;> simp
  | clock t => simp only at hs; split at hs <;> cases hs; exact keep (.same rfl) (by simp) (by simp)
  | signal n => simp only at hs; (repeat' split at hs) <;> cases hs <;> exact keep (.same rfl) (by simp) (by simp)
  | wdone i => simp only at hs; split at hs <;> cases hs; exact keep (.same rfl) (by simp) (by simp)

end Neco.Rt
