import Verif.Model.Sco
/-! # Invariant of the low-level scheduler -/
namespace Neco.Sco

/-- everybody the scheduler knows about, with multiplicity -/
def everybody (s : Sco) : List Nat := s.cur.toList ++ s.runners ++ s.yielders ++ s.paused ++ s.done

structure WF (s : Sco) : Prop where
  nr : s.nrunners = s.runners.length
  ny : s.nyielders = s.yielders.length
  np : s.npaused = s.paused.length
  perm : s.everybody.Perm (List.range' 1 s.nextId)
  bad : s.bad = false
  main : s.cur = none → s.runners = []

/-- like `WF` but the running coroutine has already been put somewhere, as when `sco_switch` is called -/
structure WF' (s : Sco) : Prop where
  nr : s.nrunners = s.runners.length
  ny : s.nyielders = s.yielders.length
  np : s.npaused = s.paused.length
  perm : (s.runners ++ s.yielders ++ s.paused ++ s.done).Perm (List.range' 1 s.nextId)
  bad : s.bad = false

theorem switch_wf {s : Sco} (h : WF' s) (b : Bool) : WF (s.switch b) := by
  obtain ⟨nr, ny, np, perm, bad⟩ := h
  unfold switch
  split
  · rename_i h0
    have hr : s.runners = [] := List.eq_nil_of_length_eq_zero (by omega)
    split
    · refine ⟨nr, ny, np, ?_, bad, fun _ => hr⟩
      simpa [everybody, toMain] using perm
    · rename_i h1
      unfold promote dispatch
      simp only
      split
      · rename_i h2; rw [h2] at ny; simp at ny; omega
      · rename_i x r h2
        refine ⟨by rw [h2] at ny; simp at ny ⊢; omega, rfl, np, ?_, bad, by simp⟩
        rw [h2, hr] at perm
        simpa [everybody] using perm
  · rename_i h0
    unfold dispatch
    split
    · rename_i h2; rw [h2] at nr; simp at nr; omega
    · rename_i x r h2
      refine ⟨by rw [h2] at nr; simp at nr ⊢; omega, ny, np, ?_, bad, by simp⟩
      rw [h2] at perm
      simpa [everybody] using perm

theorem perm_filter {l : List Nat} {x : Nat} (hn : l.Nodup) (hx : x ∈ l) : l.Perm (x :: l.filter (· ≠ x)) := by
  have := hn.erase_eq_filter x
  have h2 : l.filter (· ≠ x) = l.erase x := by rw [this]; congr 1; funext y; simp [bne]; rfl
  rw [h2]
  exact List.perm_cons_erase hx

theorem WF.nodup {s : Sco} (h : WF s) : s.everybody.Nodup := h.perm.nodup_iff.2 List.nodup_range'

theorem WF.nodup_paused {s : Sco} (h : WF s) : s.paused.Nodup := by
  have := h.nodup
  unfold everybody at this
  simp only [List.nodup_append] at this
  exact this.1.2.1

theorem start_wf {s : Sco} (h : WF s) : WF s.start := by
  have hrange : List.range' 1 (s.nextId + 1) = List.range' 1 s.nextId ++ [s.nextId + 1] := by
    rw [List.range'_concat]; simp [Nat.add_comm]
  obtain ⟨nr, ny, np, perm, bad, main⟩ := h
  unfold start
  simp only
  split
  · rename_i c hc
    refine ⟨by simp [nr], ny, np, ?_, bad, by simp⟩
    simp only [hrange, everybody, Option.toList]
    rw [List.perm_iff_count] at perm ⊢
    intro a
    have := perm a
    simp [everybody, hc, List.count_append, List.count_cons] at this ⊢
    omega
  · rename_i hc
    refine ⟨nr, ny, np, ?_, bad, by simp⟩
    simp only [hrange, everybody, Option.toList]
    rw [List.perm_iff_count] at perm ⊢
    intro a
    have := perm a
    simp [everybody, hc, List.count_append, List.count_cons] at this ⊢
    omega

theorem finish_wf {s : Sco} (h : WF s) : WF s.finish := by
  obtain ⟨nr, ny, np, perm, bad, main⟩ := h
  apply switch_wf
  refine ⟨nr, ny, np, ?_, bad⟩
  rw [List.perm_iff_count] at perm ⊢
  intro a
  have := perm a
  simp [everybody, List.count_append] at this ⊢
  omega

theorem exit_wf {s : Sco} (h : WF s) : WF s.exit := by
  obtain ⟨nr, ny, np, perm, bad, main⟩ := h
  apply switch_wf
  refine ⟨nr, ny, np, ?_, bad⟩
  rw [List.perm_iff_count] at perm ⊢
  intro a
  have := perm a
  simp [everybody, List.count_append] at this ⊢
  omega

theorem yield_wf {s : Sco} (h : WF s) : WF s.yield := by
  unfold yield
  split
  · rename_i c hc
    obtain ⟨nr, ny, np, perm, bad, main⟩ := h
    apply switch_wf
    refine ⟨nr, by simp [ny], np, ?_, bad⟩
    rw [List.perm_iff_count] at perm ⊢
    intro a
    have := perm a
    simp [everybody, hc, List.count_append, List.count_cons] at this ⊢
    omega
  · exact h

theorem pause_wf {s : Sco} (h : WF s) : WF s.pause := by
  unfold pause
  split
  · rename_i c hc
    obtain ⟨nr, ny, np, perm, bad, main⟩ := h
    apply switch_wf
    refine ⟨nr, ny, by simp [np], ?_, bad⟩
    rw [List.perm_iff_count] at perm ⊢
    intro a
    have := perm a
    simp [everybody, hc, List.count_append, List.count_cons] at this ⊢
    omega
  · exact h

theorem wake_wf {s : Sco} (h : WF s) {id : Nat} (hid : id ∈ s.paused) : WF (s.wake id) := by
  have hp := perm_filter h.nodup_paused hid
  obtain ⟨nr, ny, np, perm, bad, main⟩ := h
  unfold wake
  refine ⟨nr, by simp [ny], ?_, ?_, bad, main⟩
  · have := hp.length_eq
    simp only [List.length_cons] at this
    simp only; omega
  · rw [List.perm_iff_count] at perm hp ⊢
    intro a
    have h1 := perm a
    have h2 := hp a
    simp only [everybody, List.count_append, List.count_cons, List.count_nil] at h1 h2 ⊢
    omega

theorem resume_wf {s : Sco} (h : WF s) (id : Nat) : WF (s.resume id) := by
  unfold resume
  split
  · rename_i hid; exact yield_wf (wake_wf h hid)
  · exact h

theorem resume0_wf {s : Sco} (h : WF s) (hc : s.cur = none) : WF s.resume0 := by
  apply switch_wf
  obtain ⟨nr, ny, np, perm, bad, main⟩ := h
  refine ⟨nr, ny, np, ?_, bad⟩
  simpa [everybody, hc] using perm

theorem init_wf : WF {} := ⟨rfl, rfl, rfl, List.Perm.nil, rfl, fun _ => rfl⟩

theorem step_wf {s : Sco} (h : WF s) (o : Op) (e : o.enabled s) : WF (s.step o) := by
  cases o with
  | start => exact start_wf h
  | mainStart => exact start_wf h
  | yield => exact yield_wf h
  | pause => exact pause_wf h
  | resume id => exact resume_wf h id
  | mainResume id => exact resume_wf h id
  | finish => exact finish_wf h
  | exit => exact exit_wf h
  | mainNext => exact resume0_wf h e

theorem steps_wf {s : Sco} {ops s'} (h : Steps s ops s') (hw : WF s) : WF s' := by
  induction h with
  | nil => exact hw
  | snoc _ o e ih => exact step_wf ih o e

theorem reach_wf {s : Sco} (h : Reach s) : WF s := by
  obtain ⟨ops, h⟩ := h
  exact steps_wf h init_wf

/-- the ready coroutines in the order they will be taken if nothing else happens -/
def ready (s : Sco) : List Nat := s.runners ++ s.yielders

theorem switch_spec {s : Sco} (h : WF' s) (b : Bool) :
    (s.switch b).paused = s.paused ∧ (s.switch b).done = s.done ∧ (s.switch b).nextId = s.nextId ∧
    ∃ new, (s.switch b).hist = new ++ s.hist ∧ s.ready = new ++ (s.switch b).ready ∧
      (s.switch b).cur = new.head? ∧ new.length ≤ 1 ∧
      (s.runners ≠ [] → new ≠ [] ∧ s.runners = new ++ (s.switch b).runners ∧
        (s.switch b).yielders = s.yielders) ∧
      (new = [] → (s.switch b).runners = s.runners ∧ (s.switch b).yielders = s.yielders) ∧
      (s.runners = [] → new ≠ [] → (s.switch b).yielders = []) := by
  obtain ⟨nr, ny, np, perm, bad⟩ := h
  unfold switch
  split
  · rename_i h0
    have hr : s.runners = [] := List.eq_nil_of_length_eq_zero (by omega)
    split
    · refine ⟨rfl, rfl, rfl, [], rfl, rfl, rfl, by simp, fun c => absurd hr c, fun _ => ⟨rfl, rfl⟩, fun _ c => absurd rfl c⟩
    · rename_i h1
      unfold promote dispatch
      simp only
      split
      · rename_i h2; rw [h2] at ny; simp at ny; omega
      · rename_i x r h2
        refine ⟨rfl, rfl, rfl, [x], rfl, ?_, rfl, by simp, fun c => absurd hr c, by simp, fun _ _ => rfl⟩
        simp [ready, hr, h2]
  · rename_i h0
    unfold dispatch
    split
    · rename_i h2; rw [h2] at nr; simp at nr; omega
    · rename_i x r h2
      refine ⟨rfl, rfl, rfl, [x], rfl, ?_, rfl, by simp, fun _ => ⟨by simp, by simp [h2], rfl⟩, by simp, fun c => by simp [h2] at c⟩
      simp [ready, h2]

/-- what one operation does to the queues -/
structure QStep (s s' : Sco) (new add : List Nat) : Prop where
  hist : s'.hist = new ++ s.hist
  ready : s.ready ++ add = new ++ s'.ready
  le : new.length ≤ 1
  run : s.runners ≠ [] → s.runners = new ++ s'.runners ∧ s'.yielders = s.yielders ++ add
  none : new = [] → s'.runners = s.runners ∧ s'.yielders = s.yielders ++ add
  some : s.runners = [] → new ≠ [] → s'.yielders = []

theorem QStep.of_switch {s t : Sco} {add : List Nat} (hw : WF' t) (b : Bool)
    (hh : t.hist = s.hist) (hr : t.runners = s.runners) (hy : t.yielders = s.yielders ++ add) :
    ∃ new, QStep s (t.switch b) new add := by
  obtain ⟨_, _, _, new, h1, h2, h3, h4, h5, h6, h7⟩ := switch_spec hw b
  refine ⟨new, ⟨by rw [h1, hh], ?_, h4, ?_, ?_, ?_⟩⟩
  · rw [← h2]; simp [Sco.ready, hr, hy]
  · intro hne
    obtain ⟨_, h8, h9⟩ := h5 (by rw [hr]; exact hne)
    exact ⟨by rw [← hr, h8], by rw [h9, hy]⟩
  · intro hn; obtain ⟨a, b⟩ := h6 hn; exact ⟨by rw [a, hr], by rw [b, hy]⟩
  · intro hn; exact h7 (by rw [hr]; exact hn)

theorem QStep.refl (s : Sco) : QStep s s [] [] :=
  ⟨rfl, by simp, by simp, by simp, by simp, by simp⟩

theorem yield_q {s : Sco} (h : WF s) {c : Nat} (hc : s.cur = some c) : ∃ new, QStep s s.yield new [c] := by
  unfold yield; rw [hc]
  refine QStep.of_switch ?_ false rfl rfl rfl
  obtain ⟨nr, ny, np, perm, bad, main⟩ := h
  refine ⟨nr, by simp [ny], np, ?_, bad⟩
  rw [List.perm_iff_count] at perm ⊢
  intro a
  have := perm a
  simp [everybody, hc, List.count_append, List.count_cons] at this ⊢
  omega

theorem pause_q {s : Sco} (h : WF s) {c : Nat} (hc : s.cur = some c) : ∃ new, QStep s s.pause new [] := by
  unfold pause; rw [hc]
  refine QStep.of_switch ?_ false rfl rfl (by simp)
  obtain ⟨nr, ny, np, perm, bad, main⟩ := h
  refine ⟨nr, ny, by simp [np], ?_, bad⟩
  rw [List.perm_iff_count] at perm ⊢
  intro a
  have := perm a
  simp [everybody, hc, List.count_append, List.count_cons] at this ⊢
  omega

theorem finish_q {s : Sco} (h : WF s) : ∃ new, QStep s s.finish new [] := by
  unfold finish
  refine QStep.of_switch ?_ false rfl rfl (by simp)
  obtain ⟨nr, ny, np, perm, bad, main⟩ := h
  refine ⟨nr, ny, np, ?_, bad⟩
  rw [List.perm_iff_count] at perm ⊢
  intro a
  have := perm a
  simp [everybody, List.count_append] at this ⊢
  omega

theorem exit_q {s : Sco} (h : WF s) : ∃ new, QStep s s.exit new [] := by
  unfold exit
  refine QStep.of_switch ?_ false rfl rfl (by simp)
  obtain ⟨nr, ny, np, perm, bad, main⟩ := h
  refine ⟨nr, ny, np, ?_, bad⟩
  rw [List.perm_iff_count] at perm ⊢
  intro a
  have := perm a
  simp [everybody, List.count_append] at this ⊢
  omega

theorem resume0_q {s : Sco} (h : WF s) (hc : s.cur = none) : ∃ new, QStep s s.resume0 new [] := by
  unfold resume0
  refine QStep.of_switch ?_ true rfl rfl (by simp)
  obtain ⟨nr, ny, np, perm, bad, main⟩ := h
  refine ⟨nr, ny, np, ?_, bad⟩
  simpa [everybody, hc] using perm

theorem QStep.wake {s s' : Sco} {id : Nat} {new add} (h : QStep (s.wake id) s' new add) :
    QStep s s' new (id :: add) := by
  obtain ⟨h1, h2, h3, h4, h5, h6⟩ := h
  refine ⟨h1, ?_, h3, ?_, ?_, h6⟩
  · rw [← h2]; simp [Sco.ready, Sco.wake]
  · intro hne; have := h4 hne; simpa [Sco.wake] using this
  · intro hne; have := h5 hne; simpa [Sco.wake] using this

theorem resume_q {s : Sco} (h : WF s) (id : Nat) : ∃ new add, QStep s (s.resume id) new add ∧
    (add = [] ∨ add = id :: s.cur.toList) := by
  unfold resume
  split
  · rename_i hid
    have hw := wake_wf h hid
    cases hc : s.cur with
    | none =>
      have : (s.wake id).yield = s.wake id := by
        unfold yield
        have : (s.wake id).cur = Option.none := hc
        rw [this]
      rw [this]
      exact ⟨[], [id], (QStep.refl _).wake, Or.inr rfl⟩
    | some c =>
      obtain ⟨new, hq⟩ := yield_q hw (c := c) hc
      exact ⟨new, [id, c], hq.wake, Or.inr rfl⟩
  · exact ⟨[], [], QStep.refl _, Or.inl rfl⟩

/-- every operation but a start by a coroutine -/
theorem step_q {s : Sco} (h : WF s) (o : Op) (e : o.enabled s) (hne : o ≠ .start) :
    ∃ new add, QStep s (s.step o) new add := by
  cases o with
  | start => exact absurd rfl hne
  | mainStart =>
    refine ⟨[], [], ?_⟩
    have hc : s.cur = none := e.1
    simp only [step, start, hc]
    exact ⟨rfl, by simp [ready], by simp, by simp, by simp, by simp⟩
  | yield =>
    obtain ⟨c, hc⟩ := Option.isSome_iff_exists.1 e
    obtain ⟨new, h⟩ := yield_q h hc; exact ⟨new, _, h⟩
  | pause =>
    obtain ⟨c, hc⟩ := Option.isSome_iff_exists.1 e
    obtain ⟨new, h⟩ := pause_q h hc; exact ⟨new, _, h⟩
  | resume id => obtain ⟨new, add, h, _⟩ := resume_q h id; exact ⟨new, _, h⟩
  | mainResume id => obtain ⟨new, add, h, _⟩ := resume_q h id; exact ⟨new, _, h⟩
  | finish => obtain ⟨new, h⟩ := finish_q h; exact ⟨new, _, h⟩
  | exit => obtain ⟨new, h⟩ := exit_q h; exact ⟨new, _, h⟩
  | mainNext => obtain ⟨new, h⟩ := resume0_q h e; exact ⟨new, _, h⟩

/-- a start by a coroutine -/
theorem start_q {s : Sco} {c : Nat} (hc : s.cur = some c) :
    s.start.hist = s.hist ∧ s.start.runners = s.runners ++ [c] ∧ s.start.yielders = s.yielders ∧
    s.start.cur = some (s.nextId + 1) := by
  unfold start; rw [hc]; exact ⟨rfl, rfl, rfl, rfl⟩

/-- `done` only grows -/
theorem step_done {s : Sco} (h : WF s) (o : Op) (e : o.enabled s) :
    ∃ d, (s.step o).done = d ++ s.done := by
  have sw : ∀ (t : Sco) b, (t.switch b).done = t.done := by
    intro t b; unfold switch
    split
    · split
      · rfl
      · unfold dispatch; split <;> rfl
    · unfold dispatch; split <;> rfl
  have yl : ∀ t : Sco, t.yield.done = t.done := by
    intro t; unfold yield; split <;> simp [sw]
  cases o with
  | start => refine ⟨[], ?_⟩; simp only [step, start]; split <;> rfl
  | mainStart => refine ⟨[], ?_⟩; simp only [step, start]; split <;> rfl
  | yield => exact ⟨[], yl s⟩
  | pause => refine ⟨[], ?_⟩; simp only [step, pause]; split <;> simp [sw]
  | resume id => refine ⟨[], ?_⟩; simp only [step, resume]; split <;> simp [yl, wake]
  | mainResume id => refine ⟨[], ?_⟩; simp only [step, resume]; split <;> simp [yl, wake]
  | finish => exact ⟨s.cur.toList, by simp [step, finish, sw]⟩
  | exit => exact ⟨s.cur.toList, by simp [step, exit, sw]⟩
  | mainNext => exact ⟨[], by simp [step, resume0, sw]⟩

end Neco.Sco
