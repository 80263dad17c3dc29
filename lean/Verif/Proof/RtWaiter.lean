import Verif.Proof.RtLock
import Verif.Proof.RtGen3
import Verif.Proof.RtMsg5
import Verif.Proof.RtBcast
/-!
# Where waiting coroutines are, and in which order
-/
namespace Neco.Rt
open Neco.Err

/-- a coroutine that waits for a mutex is in its queue -/
theorem lock_in {s : S} {m i : Nat} (f : Fresh i s) {rd : Bool} (h : Awaits s m i rd) :
    .co i ∈ s.lists (.muQ m) ∧ (s.co i).pc = .blk (.lock rd) ∧ (s.co i).rlocked = rd := by
  have r := f.reach
  obtain ⟨⟨hb, hw⟩, dl, hp⟩ := h
  have hcall := ((pending_call r).mp hp).1
  obtain ⟨b, hpc, dl', hbc, _⟩ := blocked_blk r hb hp (pending_ne_work f hp (by unfold lockCall; split <;> simp))
  have hbb : b = .lock rd := by
    unfold lockCall at hbc
    cases rd <;> cases b <;> simp [BlkC] at hbc <;> first | rfl | (rename_i x; cases x <;> simp [BlkC] at hbc <;> rfl)
  subst hbb
  rcases (f.coE.bk _ hpc).lw hb with h | h
  · have h := Classical.not_not.mp h
    obtain ⟨L, h1, h2, h3⟩ := h
    have hpl := (reach_invL r).pl L _ h3
    simp only [Node.owner] at hpl
    have hm : L = .muQ m ∧ (s.co i).rlocked = rd := by
      unfold lockCall at hcall
      cases rd <;> cases L <;> simp [place, hpc, hcall] at hpl h1 h2 ⊢ <;> exact ⟨hpl.1.symm, hpl.2⟩
    exact ⟨hm.1 ▸ h3, hpc, hm.2⟩
  · exact absurd h hw

/-- a coroutine that waits for a wait group is in its queue -/
theorem wg_in {s : S} {w i : Nat} (f : Fresh i s) {dl : Int} (h : Asleep s i) (hp : pending i s.log = some (.wgWait w dl)) : .co i ∈ s.lists (.wgQ w) := by
  have r := f.reach
  obtain ⟨hb, hw⟩ := h
  have hcall := ((pending_call r).mp hp).1
  obtain ⟨b, hpc, dl', hbc, _⟩ := blocked_blk r hb hp (pending_ne_work f hp (by simp))
  have hbb : b = .wg := by
    cases b <;> simp [BlkC] at hbc <;> first | rfl | (rename_i x; cases x <;> simp [BlkC] at hbc)
  subst hbb
  rcases (f.coE.bk _ hpc).lw hb with h | h
  · have h := Classical.not_not.mp h
    obtain ⟨L, h1, h2, h3⟩ := h
    have hpl := (reach_invL r).pl L _ h3
    simp only [Node.owner] at hpl
    cases L <;> simp [place, hpc, hcall] at hpl h1 h2
    subst hpl; exact h3
  · exact absurd h hw

/-- a coroutine that waits for a condition is in its queue -/
theorem cond_in {s : S} {v m i : Nat} (f : Fresh i s) {dl : Int} (h : Asleep s i) (hr : ¬ Relocking s i) (hp : pending i s.log = some (.cvWait v m dl)) :
    .co i ∈ s.lists (.cvQ v) ∧ (s.co i).pc = .blk .cond := by
  have r := f.reach
  obtain ⟨hb, hw⟩ := h
  have hcall := ((pending_call r).mp hp).1
  obtain ⟨b, hpc, dl', hbc, _⟩ := blocked_blk r hb hp (pending_ne_work f hp (by simp))
  have hbb : b = .cond := by
    cases b <;> simp [BlkC] at hbc <;> first | rfl | (exact absurd hpc hr) | (rename_i x; cases x <;> simp [BlkC] at hbc)
  subst hbb
  rcases (f.coE.bk _ hpc).lw hb with h | h
  · have h := Classical.not_not.mp h
    obtain ⟨L, h1, h2, h3⟩ := h
    have hpl := (reach_invL r).pl L _ h3
    simp only [Node.owner] at hpl
    cases L <;> simp [place, hpc, hcall] at hpl h1 h2
    subst hpl; exact ⟨h3, hpc⟩
  · exact absurd h hw

/-! ## First come, first served -/

/-- the places where a coroutine is blocked from the step of its call on -/
def Blk.direct : Blk → Bool
  | .send | .recv | .lock _ | .wg | .join | .sig => true
  | _ => false

def Direct (s : S) (n : Node) : Prop := ∃ i b, n = .co i ∧ (s.co i).pc = .blk b ∧ b.direct = true

def InvFifo (s : S) : Prop := ∀ L, L ≠ .resumers → L ≠ .iolist → (s.lists L).Pairwise (fun x y => Direct s x → Direct s y → CalledBefore x.owner y.owner s.log)

theorem step_calls {s s' : S} {a : Act} (hs : step s a = some s') : ∃ es, s'.log = es ++ s.log ∧ (∀ j, s.sco.cur ≠ some j → ∀ e ∈ es, isCallOf j e = false) ∧
    ∀ i, s.sco.cur = some i → (∀ c, a ≠ .call c) → ∀ e ∈ es, isCallOf i e = false := by
  cases a with
  | call c =>
    obtain ⟨i, h1, h2, h3, h4⟩ := step_call hs
    obtain ⟨fs, e1, e2⟩ := call_log hs h1
    refine ⟨fs ++ [.call i c], by simp [e1], ?_, fun _ _ h => absurd rfl (h c)⟩
    intro j hj e he
    simp only [List.mem_append, List.mem_singleton] at he
    rcases he with he | rfl
    · have := e2 e he
      cases e <;> first | rfl | (simp only [Ev.kind] at this; cases c <;> simp [callKinds] at this)
    · rw [h1] at hj
      simp only [isCallOf, beq_eq_false_iff_ne]
      exact fun e => hj (by rw [e])
  | _ =>
    obtain ⟨es, e1, e2⟩ := step_adds hs
    have : ∀ e ∈ es, ∀ j, isCallOf j e = false := by
      intro e he j
      have := e2 e he
      cases e <;> first | rfl | skip
      exfalso
      simp only [Ev.kind, stepKinds] at this
      first
      | (simp at this; done)
      | (split at this
         · unfold pcKinds at this; split at this <;> simp at this
         · unfold mainKinds at this; split at this <;> simp at this)
    exact ⟨es, e1, fun j _ e he => this e he j, fun i _ _ e he => this e he i⟩

theorem sub_pair_left {α : Type} {x y : α} {A o : List α} (h : [x, y].Sublist (A ++ o)) (hx : x ∉ A) : y ∈ o := by
  obtain ⟨l1, l2, e, h1, h2⟩ := List.sublist_append_iff.mp h
  cases l1 with
  | nil => simp only [List.nil_append] at e; subst e; exact h2.subset (by simp)
  | cons z l1 => simp only [List.cons_append, List.cons.injEq] at e; exact absurd (h1.subset (by simp [e.1])) hx

theorem sub_pair_right {α : Type} {x y : α} {A o : List α} (h : [x, y].Sublist (A ++ o)) (hy : y ∉ o) : [x, y].Sublist A := by
  obtain ⟨l1, l2, e, h1, h2⟩ := List.sublist_append_iff.mp h
  cases l2 with
  | nil => simp only [List.append_nil] at e; rw [e]; exact h1
  | cons z l2 =>
    exfalso; apply hy; apply h2.subset
    have : y ∈ l1 ++ z :: l2 := by rw [← e]; simp
    cases l1 with
    | nil => simpa using this
    | cons w l1 =>
      simp only [List.cons_append, List.cons.injEq] at e
      cases l1 with
      | nil => simp only [List.nil_append] at e; rw [← e.2]; simp
      | cons v l1 => simp at e

theorem before_append {i j : Nat} {es l : List Ev} (hi : ∀ e ∈ es, isCallOf i e = false) (hj : ∀ e ∈ es, isCallOf j e = false) (h : CalledBefore i j l) : CalledBefore i j (es ++ l) := by
  unfold CalledBefore at h ⊢
  rw [since_append hi, since_append hj]; simp; omega

/-- steps other than calls and steps of a coroutine append to no queue -/
theorem step_sub' {s s' : S} {a : Act} (hs : step s a = some s') {L : LName} (h1 : L ≠ .resumers) (h2 : L ≠ .iolist)
    (ha : ∀ c, a ≠ .call c) (hb : a = .tau → s.sco.cur = none) : (s'.lists L).Sublist (s.lists L) := by
  by_cases hc : s.sco.cur = none
  · exact step_sub hs h1 h2 (by rw [hc]; simp)
  have hs0 := hs
  unfold step at hs
  split at hs
  · cases hs
  cases a with
  | call c => exact absurd rfl (ha c)
  | tau => exact absurd (hb rfl) hc
  | finish => simp only at hs; (repeat' split at hs) <;> cases hs <;> exact List.Sublist.refl _
  | submit ok => simp only at hs; (repeat' split at hs) <;> cases hs <;> exact List.Sublist.refl _
  | events evs =>
    simp only at hs; split at hs <;> cases hs
    rename_i hg
    exact absurd hg.1 hc
  | clock t => simp only at hs; split at hs <;> cases hs; exact List.Sublist.refl _
  | signal n => simp only at hs; (repeat' split at hs) <;> cases hs <;> exact List.Sublist.refl _
  | wdone i =>
    simp only at hs; split at hs <;> cases hs
    simp [push, setList, rm, h2]

theorem InvFifo.step {ok} {s s' : S} {a : Act} (h : InvFifo s) (r : Reach ok s) (r' : Reach ok s') (hs : Rt.step s a = some s') : InvFifo s' := by
  intro L h1 h2
  obtain ⟨o, ho, hsub⟩ := step_subO hs h1 h2
  obtain ⟨es, hes, hcal, hcal'⟩ := step_calls hs
  have hL := reach_invL r
  have hL' := reach_invL r'
  have hnd := hL'.nd L
  -- a node that is `Direct` afterwards and belongs to another coroutine was `Direct` before
  have back : ∀ x, Direct s' x → s.sco.cur ≠ some x.owner → Direct s x := by
    rintro x ⟨i, b, rfl, hp, hd⟩ hc
    refine ⟨i, b, rfl, ?_, hd⟩
    cases step_pcs r hs i with
    | same h => rw [← h]; exact hp
    | new _ _ h => rw [h] at hp; cases hp
    | call _ _ hc' => exact absurd hc' hc
    | finish _ hc' => exact absurd hc' hc
    | tau _ hc' => exact absurd hc' hc
    | submit _ hc' => exact absurd hc' hc
  by_cases hA : (∀ c, a ≠ .call c) ∧ (a = .tau → s.sco.cur = none)
  · -- nobody is added
    have hno : ∀ j, ∀ e ∈ es, isCallOf j e = false := by
      intro j
      by_cases hj : s.sco.cur = some j
      · exact hcal' j hj hA.1
      · exact hcal j hj
    refine ((h L h1 h2).sublist (step_sub' hs h1 h2 hA.1 hA.2)).imp ?_
    intro x y hxy hx hy
    rw [hes]
    have back' : ∀ x, Direct s' x → Direct s x := by
      rintro x ⟨i, b, rfl, hp, hd⟩
      refine ⟨i, b, rfl, ?_, hd⟩
      cases step_pcs r hs i with
      | same h => rw [← h]; exact hp
      | new _ _ h => rw [h] at hp; cases hp
      | call c ha => exact absurd ha (hA.1 c)
      | finish _ _ _ h => rw [h, pc_setPc] at hp; cases hp
      | tau ha hc' => rw [hA.2 ha] at hc'; cases hc'
      | submit _ _ _ h => rw [h] at hp; cases hp
    exact before_append (hno _) (hno _) (hxy (back' x hx) (back' y hy))
  -- the running coroutine, if `Direct` afterwards, has just called
  have fresh : ∀ i, s.sco.cur = some i → Direct s' (.co i) → ∃ c, a = .call c ∧ (s.co i).pc = .user := by
    rintro i hc ⟨_, b, e, hp, hd⟩
    cases e
    cases a with
    | call c => exact ⟨c, rfl, (step_call_of hs hc).1⟩
    | tau =>
      exfalso
      have ht : tauCo s i = some s' := by
        unfold Rt.step at hs; split at hs
        · cases hs
        · simpa [hc] using hs
      rcases tauCo_blk ht hp with ⟨rfl, _⟩ | ⟨rfl, _⟩ | ⟨rfl, _⟩ <;> simp [Blk.direct] at hd
    | _ => exact absurd ⟨by simp, by simp⟩ hA
  rw [List.pairwise_iff_forall_sublist]
  intro x y hxy hx hy
  have hne : x ≠ y := by
    have := hnd.sublist hxy
    simpa using this
  have hxy' := hxy.trans hsub
  by_cases hyc : s.sco.cur = some y.owner
  · obtain ⟨i, b, rfl, hp, hd⟩ := hy
    obtain ⟨c, ha, hu⟩ := fresh i hyc ⟨i, b, rfl, hp, hd⟩
    subst ha
    obtain ⟨fs, e1, e2⟩ : ∃ fs, s'.log = fs ++ .call i c :: s.log ∧ ∀ e ∈ fs, e.kind ∈ callKinds c := call_log hs hyc
    obtain ⟨k, b', rfl, hp', hd'⟩ := hx
    have hk : s.sco.cur ≠ some k := by
      rw [hyc]; intro e; apply hne
      simp only [Option.some.injEq, Node.owner] at e; rw [e]
    have hfs : ∀ j, ∀ e ∈ fs, isCallOf j e = false := by
      intro j e he
      have := e2 e he
      cases e <;> first | rfl | (simp only [Ev.kind] at this; cases c <;> simp [callKinds] at this)
    unfold CalledBefore
    simp only [Node.owner]
    rw [e1, since_app (hfs i), since_append (hfs k)]
    have : since k (.call i c :: s.log) = .call i c :: since k s.log := by
      have : isCallOf k (.call i c) = false := by
        simp only [isCallOf, beq_eq_false_iff_ne]; intro e; subst e; exact hk hyc
      unfold since; rw [List.takeWhile_cons, this]; simp
    rw [this]; simp
  by_cases hxc : s.sco.cur = some x.owner
  · exfalso
    obtain ⟨i, b, rfl, hp, hd⟩ := hx
    obtain ⟨c, ha, hu⟩ := fresh i hxc ⟨i, b, rfl, hp, hd⟩
    have hnin : .co i ∉ s.lists L := by
      intro hin
      rcases hL.free (i := i) (by rw [hu]; rfl) L _ hin rfl with e | e
      · exact h1 e
      · exact h2 e
    exact hyc (ho y (sub_pair_left hxy' hnin))
  · have hyo : y ∉ o := fun hh => hyc (ho y hh)
    have := (List.pairwise_iff_forall_sublist.mp (h L h1 h2)) (sub_pair_right hxy' hyo) (back x hx hxc) (back y hy hyc)
    rw [hes]
    exact before_append (hcal _ hxc) (hcal _ hyc) this

theorem reach_invFifo {ok} {s : S} (r : Reach ok s) : InvFifo s := by
  induction r with
  | init a e => intro L _ _; simp [init]
  | step h a ho hs ih => exact ih.step h (.step h a ho hs) hs

end Neco.Rt
