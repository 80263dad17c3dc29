import Verif.Proof.Sco
/-!
# Scheduling: C02 (nobody lost or duplicated), C03 (fairness), C04 (start order), C07 (end of the runtime)

Stated on the low-level scheduler for every sequence of scheduling operations (`Sco.Steps`); the
integrated runtime performs only these operations on it (`Verif.Proof.RtSched`).
-/
namespace Neco.Sco

/-- C02. In every reachable state each coroutine ever started is in exactly one place — running, due in
this round, waiting for the next round, paused, or finished — and no identifier that was not handed out
is anywhere.  (`count` counts occurrences over all the places together.) -/
theorem C02_exactly_one {s : Sco} (h : Reach s) (id : Nat) :
    (s.cur.toList ++ s.runners ++ s.yielders ++ s.paused ++ s.done).count id =
      if 1 ≤ id ∧ id ≤ s.nextId then 1 else 0 := by
  have hp := (reach_wf h).perm
  rw [List.perm_iff_count] at hp
  have h1 := hp id
  unfold everybody at h1
  rw [h1]
  by_cases hm : id ∈ List.range' 1 s.nextId
  · rw [(List.nodup_range' (s := 1) (n := s.nextId)).count, if_pos hm]
    rw [List.mem_range'_1] at hm
    rw [if_pos (by omega)]
  · rw [List.count_eq_zero_of_not_mem hm]
    rw [List.mem_range'_1] at hm
    rw [if_neg (by omega)]

/-- C02. A coroutine that finished is never run again, whatever happens afterwards. -/
theorem C02_finished_stays {s s' : Sco} {ops} (h : Reach s) (hs : Steps s ops s') {id : Nat}
    (hd : id ∈ s.done) : id ∈ s'.done ∧ s'.cur ≠ some id := by
  have hw := reach_wf h
  have hw' := steps_wf hs hw
  have : id ∈ s'.done := by
    clear hw'
    induction hs with
    | nil => exact hd
    | snoc hs o e ih =>
      obtain ⟨d, hd'⟩ := step_done (steps_wf hs hw) o e
      rw [hd']; simp [ih]
  refine ⟨this, ?_⟩
  intro hc
  have hn := hw'.nodup
  unfold everybody at hn
  rw [hc] at hn
  simp only [Option.toList, List.cons_append, List.nil_append, List.nodup_cons, List.mem_append, not_or] at hn
  exact hn.1.2 this

/-- C02. No undefined behaviour: the scheduler never runs a coroutine that does not exist. -/
theorem C02_no_bad_dispatch {s : Sco} (h : Reach s) : s.bad = false := (reach_wf h).bad

/-- the number of coroutines that are ahead of `x` -/
inductive Ahead (s : Sco) (x : Nat) : Nat → Prop
  | runner {pre post} (h : s.runners = pre ++ x :: post) : Ahead s x pre.length
  | yielder {pre post} (h : s.yielders = pre ++ x :: post) : Ahead s x (s.runners.length + pre.length)

theorem qstep_ahead {s s' : Sco} {new add} (q : QStep s s' new add) {x k : Nat} (h : Ahead s x k) :
    x ∈ new ∨ ∃ k', Ahead s' x k' ∧ k' + new.length = k := by
  obtain ⟨h1, h2, h3, h4, h5, h6⟩ := q
  cases h with
  | @runner pre post h =>
    obtain ⟨hr, hy⟩ := h4 (by rw [h]; simp)
    cases pre with
    | nil =>
      cases new with
      | nil => right; exact ⟨0, by simpa using Ahead.runner (pre := []) (by rw [← h]; simpa using hr.symm), rfl⟩
      | cons n new =>
        left
        rw [h] at hr; simp at hr; simp [hr.1]
    | cons p pre =>
      cases new with
      | nil =>
        right
        exact ⟨_, Ahead.runner (pre := p :: pre) (post := post) (by rw [← h]; simpa using hr.symm), rfl⟩
      | cons n new =>
        right
        have hn : new = [] := by simpa using h3
        subst hn
        rw [h] at hr; simp at hr
        exact ⟨_, Ahead.runner (pre := pre) (post := post) hr.2.symm, by simp⟩
  | @yielder pre post h =>
    by_cases hr : s.runners = []
    · by_cases hn : new = []
      · right
        obtain ⟨ha, hb⟩ := h5 hn
        exact ⟨_, Ahead.yielder (pre := pre) (post := post ++ add) (by rw [hb, h]; simp), by rw [ha, hn]; simp⟩
      · have hy := h6 hr hn
        rw [ready, ready, hr, hy, h] at h2
        cases new with
        | nil => exact absurd rfl hn
        | cons n new =>
          have hn' : new = [] := by simpa using h3
          subst hn'
          cases pre with
          | nil => left; simp at h2; simp [h2.1]
          | cons p pre =>
            right
            simp at h2
            exact ⟨_, Ahead.runner (pre := pre) (post := post ++ add) (by rw [← h2.2]), by simp [hr]⟩
    · obtain ⟨ha, hb⟩ := h4 hr
      right
      refine ⟨_, Ahead.yielder (pre := pre) (post := post ++ add) (by rw [hb, h]; simp), ?_⟩
      rw [ha]; simp; omega

/-- C03. A coroutine that is due in the current round with `k` coroutines before it is the `k+1`-th
coroutine taken from the ready queue from now on, whatever all the coroutines do in the meantime:
after any operations either it has been run, or exactly the difference of coroutines has been run. -/
theorem C03_due_this_round {s s' : Sco} {ops} (h : Reach s) (hs : Steps s ops s') {x : Nat} {pre post}
    (hx : s.runners = pre ++ x :: post) :
    ∃ new, s'.hist = new ++ s.hist ∧ (x ∈ new ∨
      (∃ pre' post', s'.runners = pre' ++ x :: post' ∧ pre'.length + new.length = pre.length)) := by
  have hw := reach_wf h
  induction hs with
  | nil => exact ⟨[], rfl, Or.inr ⟨pre, post, hx, rfl⟩⟩
  | @snoc ops t hs o e ih =>
    obtain ⟨new, h1, h2⟩ := ih
    by_cases ho : o = .start
    · subst ho
      obtain ⟨c, hc⟩ := Option.isSome_iff_exists.1 (show t.cur.isSome from e)
      obtain ⟨q1, q2, q3, _⟩ := start_q hc
      refine ⟨new, by simp only [step]; rw [q1, h1], ?_⟩
      rcases h2 with h2 | ⟨pre', post', h2, h3⟩
      · exact Or.inl h2
      · exact Or.inr ⟨pre', post' ++ [c], by simp only [step]; rw [q2, h2]; simp, h3⟩
    · obtain ⟨new2, add, q⟩ := step_q (steps_wf hs hw) o e ho
      refine ⟨new2 ++ new, by rw [q.hist, h1]; simp, ?_⟩
      rcases h2 with h2 | ⟨pre', post', h2, h3⟩
      · left; simp [h2]
      · have hr := (q.run (by rw [h2]; simp)).1
        cases new2 with
        | nil => right; exact ⟨pre', post', by rw [← h2]; simpa using hr.symm, by simpa using h3⟩
        | cons n new2 =>
          have hn : new2 = [] := by simpa using q.le
          subst hn
          rw [h2] at hr
          cases pre' with
          | nil => left; simp at hr; simp [hr.1]
          | cons p pre' =>
            right
            simp at hr
            exact ⟨pre', post', hr.2.symm, by simp at h3 ⊢; omega⟩

/-- number of starts among some operations -/
def starts (ops : List Op) : Nat := (ops.filter (fun o => decide (o = .start))).length

/-- C03 (partial). A ready coroutine with `k` coroutines ahead of it (all those due this round, and those
that yielded before it) is run before more than `k` coroutines plus one per start performed meanwhile
have been taken from the ready queue.  The full property has no allowance for starts: it is false for
coroutines waiting for the next round (`C03_false_starvation`). -/
theorem C03_fair_partial {s s' : Sco} {ops} (h : Reach s) (hs : Steps s ops s') {x k : Nat}
    (hx : Ahead s x k) :
    ∃ new, s'.hist = new ++ s.hist ∧
      (x ∈ new ∨ (new.length ≤ k + starts ops ∧ ∃ k', Ahead s' x k' ∧ k' + new.length ≤ k + starts ops)) := by
  have hw := reach_wf h
  induction hs with
  | nil => exact ⟨[], rfl, Or.inr ⟨by simp, k, hx, by simp⟩⟩
  | @snoc ops t hs o e ih =>
    obtain ⟨new, h1, h2⟩ := ih
    have hst : starts (ops ++ [o]) = starts ops + (if o = .start then 1 else 0) := by
      unfold starts; by_cases ho : o = .start <;> simp [ho]
    by_cases ho : o = .start
    · subst ho
      obtain ⟨c, hc⟩ := Option.isSome_iff_exists.1 (show t.cur.isSome from e)
      obtain ⟨q1, q2, q3, _⟩ := start_q hc
      refine ⟨new, by simp only [step]; rw [q1, h1], ?_⟩
      rcases h2 with h2 | ⟨_, k', h2, h3⟩
      · exact Or.inl h2
      · right
        rw [hst, if_pos rfl]
        refine ⟨by omega, ?_⟩
        cases h2 with
        | @runner pre post h2 =>
          exact ⟨_, Ahead.runner (pre := pre) (post := post ++ [c]) (by simp only [step]; rw [q2, h2]; simp), by omega⟩
        | @yielder pre post h2 =>
          exact ⟨_, Ahead.yielder (pre := pre) (post := post) (by simp only [step]; rw [q3, h2]),
            by simp only [step]; rw [q2]; simp; omega⟩
    · obtain ⟨new2, add, q⟩ := step_q (steps_wf hs hw) o e ho
      refine ⟨new2 ++ new, by rw [q.hist, h1]; simp, ?_⟩
      rcases h2 with h2 | ⟨_, k', h2, h3⟩
      · left; simp [h2]
      · rcases qstep_ahead q h2 with h4 | ⟨k2, h4, h5⟩
        · left; simp [h4]
        · right
          rw [hst, if_neg ho]
          refine ⟨?_, k2, h4, ?_⟩ <;> simp <;> omega

/-- C03. Yielding puts the caller behind every ready coroutine: the ready coroutines in order, followed by
the caller, are the coroutine that runs next followed by the remaining ready ones in order. -/
theorem C03_yield_goes_last {s : Sco} (h : Reach s) {c : Nat} (hc : s.cur = some c) :
    ∃ new, s.yield.hist = new ++ s.hist ∧
      s.runners ++ s.yielders ++ [c] = new ++ (s.yield.runners ++ s.yield.yielders) := by
  obtain ⟨new, q⟩ := yield_q (reach_wf h) hc
  exact ⟨new, q.hist, q.ready⟩

/-- the state in which coroutine 1 has started 2, which yielded: 1 runs, 2 is ready -/
def starveState : Sco := (((({} : Sco).step .mainStart).step .start).step .yield)

/-- coroutine 1 starts a coroutine which finishes at once, `n` times -/
def starveOps : Nat → List Op
  | 0 => []
  | n + 1 => starveOps n ++ [.start] ++ [.finish]

/-- C03 is false in full: a coroutine that keeps starting coroutines that finish at once keeps every
yielded coroutine (here 2) from running, for as long as it wishes, although nobody is ahead of it but
the starter itself. -/
theorem C03_false_starvation (n : Nat) : ∃ s', Reach starveState ∧ Ahead starveState 2 0 ∧
    Steps starveState (starveOps n) s' ∧
    s'.hist = List.replicate n 1 ++ starveState.hist ∧ 2 ∈ s'.yielders ∧ s'.cur = some 1 := by
  have hr : Reach starveState :=
    ⟨[] ++ [.mainStart] ++ [.start] ++ [.yield],
      (((Steps.nil {}).snoc .mainStart (by decide)).snoc .start (by decide)).snoc .yield (by decide)⟩
  have ha : Ahead starveState 2 0 := Ahead.yielder (pre := []) (post := []) (by decide)
  have gen : ∀ n, ∃ s', Steps starveState (starveOps n) s' ∧
      s'.hist = List.replicate n 1 ++ starveState.hist ∧ s'.yielders = [2] ∧ s'.cur = some 1 ∧
      s'.runners = [] ∧ s'.nrunners = 0 := by
    intro n
    induction n with
    | zero => exact ⟨starveState, Steps.nil _, rfl, by decide, by decide, by decide, by decide⟩
    | succ n ih =>
      obtain ⟨s', h1, h2, h3, h4, h5, h6⟩ := ih
      have hst : s'.step .start = { s' with nextId := s'.nextId + 1, runners := [1], nrunners := 1, cur := some (s'.nextId + 1) } := by
        simp [step, start, h4, h5, h6]
      have e2 : (Op.finish).enabled (s'.step .start) := by simp [hst, Op.enabled]
      refine ⟨_, (h1.snoc .start (by simp [Op.enabled, h4])).snoc .finish e2, ?_⟩
      rw [hst]
      simp only [step, finish, switch, dispatch]
      simp [h2, h3, List.replicate_succ]
  obtain ⟨s', h1, h2, h3, h4, _, _⟩ := gen n
  exact ⟨s', hr, ha, h1, h2, by simp [h3], h4⟩

/-- C04. Starting a coroutine transfers control to it at once and gives it a new identifier. -/
theorem C04_runs_at_once {s : Sco} (h : Reach s) {c : Nat} (hc : s.cur = some c) :
    ∃ id, s.start.cur = some id ∧ id ∉ s.cur.toList ++ s.runners ++ s.yielders ++ s.paused ++ s.done ∧
      s.start.nextId = id := by
  refine ⟨s.nextId + 1, (start_q hc).2.2.2, ?_, by unfold start; rw [hc]⟩
  have hp := (reach_wf h).perm
  intro hm
  have := hp.mem_iff.1 hm
  rw [List.mem_range'_1] at this
  omega

/-- C04. The starter runs again before any coroutine that had yielded (as long as the starter has not been
run, none of them has), and after every coroutine that was due in the current round. -/
theorem C04_starter_before_yielders {s s' : Sco} {ops} (h : Reach s) {c : Nat} (hc : s.cur = some c)
    (hs : Steps s.start ops s') :
    ∃ new, s'.hist = new ++ s.start.hist ∧
      (c ∈ new ∨ ∀ y ∈ s.yielders, y ∉ new) ∧ (c ∈ new → ∀ x ∈ s.runners, x ∈ new) := by
  have hw := start_wf (reach_wf h)
  obtain ⟨q1, q2, q3, q4⟩ := start_q hc
  suffices hh : ∃ new, s'.hist = new ++ s.start.hist ∧
      ((c ∈ new ∧ ∀ x ∈ s.runners, x ∈ new) ∨
       (∃ pre, s'.runners.take (pre.length + 1) = pre ++ [c] ∧ new.reverse ++ pre = s.runners ∧
        s.yielders <+: s'.yielders)) by
    obtain ⟨new, h1, h2⟩ := hh
    refine ⟨new, h1, ?_⟩
    have hn := (reach_wf h).nodup
    unfold everybody at hn
    rcases h2 with ⟨h2, h3⟩ | ⟨pre, h2, h3, h4⟩
    · exact ⟨Or.inl h2, fun _ => h3⟩
    · have hsub : ∀ x ∈ new, x ∈ s.runners := by intro x hx; rw [← h3]; simp [hx]
      rw [hc] at hn
      simp only [Option.toList, List.cons_append, List.nil_append, List.nodup_cons, List.mem_append, not_or] at hn
      refine ⟨Or.inr ?_, fun hcn => absurd (hsub c hcn) hn.1.1.1.1⟩
      intro y hy hyn
      have h5 := hn.2
      simp only [List.append_assoc] at h5
      rw [List.nodup_append] at h5
      exact h5.2.2 y (hsub y hyn) y (by simp [hy]) rfl
  induction hs with
  | nil => exact ⟨[], rfl, Or.inr ⟨s.runners, by rw [q2]; rw [List.take_of_length_le]; simp, by simp, by rw [q3]; exact List.prefix_refl _⟩⟩
  | @snoc ops t hs o e ih =>
    obtain ⟨new, h1, h2⟩ := ih
    by_cases ho : o = .start
    · subst ho
      obtain ⟨c', hc'⟩ := Option.isSome_iff_exists.1 (show t.cur.isSome from e)
      obtain ⟨r1, r2, r3, _⟩ := start_q hc'
      refine ⟨new, by simp only [step]; rw [r1, h1], ?_⟩
      rcases h2 with h2 | ⟨pre, h2, h3, h4⟩
      · exact Or.inl h2
      · refine Or.inr ⟨pre, ?_, h3, by simp only [step]; rw [r3]; exact h4⟩
        simp only [step]; rw [r2]
        have hlen : pre.length + 1 ≤ t.runners.length := by
          have := congrArg List.length h2; simp at this; omega
        rw [List.take_append_of_le_length hlen, h2]
    · obtain ⟨new2, add, q⟩ := step_q (steps_wf hs hw) o e ho
      refine ⟨new2 ++ new, by rw [q.hist, h1]; simp, ?_⟩
      rcases h2 with ⟨h2, h3⟩ | ⟨pre, h2, h3, h4⟩
      · left; exact ⟨by simp [h2], fun x hx => by simp [h3 x hx]⟩
      · have hne : t.runners ≠ [] := by intro hz; rw [hz] at h2; simp at h2
        obtain ⟨hr, hy⟩ := q.run hne
        have hpre : s.yielders <+: (t.step o).yielders := by
          rw [hy]; exact h4.trans (List.prefix_append _ _)
        cases new2 with
        | nil => right; exact ⟨pre, by rw [← h2, show (t.step o).runners = t.runners by simpa using hr.symm], by simpa using h3, hpre⟩
        | cons n new2 =>
          have hn : new2 = [] := by simpa using q.le
          subst hn
          rw [hr] at h2
          cases pre with
          | nil =>
            left
            simp at h2 h3
            refine ⟨by simp [h2], fun x hx => ?_⟩
            rw [← h3] at hx; simp at hx; simp [hx]
          | cons p pre =>
            right
            simp at h2
            exact ⟨pre, h2.2, by rw [← h3]; simp [h2.1], hpre⟩

/-- C07. The condition under which the scheduler loop ends (`sco_active()` false) holds exactly when every
coroutine ever started has finished. -/
theorem C07_loop_ends_iff {s : Sco} (h : Reach s) :
    s.active = false ↔ ∀ id, 1 ≤ id → id ≤ s.nextId → id ∈ s.done := by
  have hw := reach_wf h
  have hp := hw.perm
  constructor
  · intro ha id h1 h2
    unfold active at ha
    simp at ha
    obtain ⟨⟨⟨a, b⟩, c⟩, d⟩ := ha
    have e1 : s.runners = [] := List.eq_nil_of_length_eq_zero (by have := hw.nr; omega)
    have e2 : s.yielders = [] := List.eq_nil_of_length_eq_zero (by have := hw.ny; omega)
    have e3 : s.paused = [] := List.eq_nil_of_length_eq_zero (by have := hw.np; omega)
    have hm : id ∈ s.everybody := hp.mem_iff.2 (by rw [List.mem_range'_1]; omega)
    unfold everybody at hm
    rw [e1, e2, e3, d] at hm
    simpa using hm
  · intro hall
    have hn := hw.nodup
    have nope : ∀ id, id ∈ s.cur.toList ++ s.runners ++ s.yielders ++ s.paused → False := by
      intro id hm
      have hr := hp.mem_iff.1 (show id ∈ s.everybody by unfold everybody; rw [List.mem_append]; exact Or.inl hm)
      rw [List.mem_range'_1] at hr
      have hd := hall id hr.1 (by omega)
      unfold everybody at hn
      rw [List.nodup_append] at hn
      exact hn.2.2 id hm id hd rfl
    have e : s.cur.toList ++ s.runners ++ s.yielders ++ s.paused = [] := List.eq_nil_iff_forall_not_mem.2 nope
    simp only [List.append_eq_nil_iff] at e
    have hcur : s.cur = none := by cases hc : s.cur with | none => rfl | some c => rw [hc] at e; simp at e
    unfold active
    rw [hw.ny, hw.np, hw.nr, hcur, e.1.1.2, e.1.2, e.2]
    rfl

/-- a non-trivial reachable state: 1 started 2 and 3; 2 paused, 3 yielded, 1 runs -/
example : Reach ((((((({} : Sco).step .mainStart).step .start).step .pause).step .start).step .yield)) :=
  ⟨_, ((((Steps.nil {}).snoc .mainStart (by decide)).snoc .start (by decide)).snoc .pause (by decide)
    |>.snoc .start (by decide)).snoc .yield (by decide)⟩
example : let s := (((((({} : Sco).step .mainStart).step .start).step .pause).step .start).step .yield)
    s.cur = some 1 ∧ s.runners = [] ∧ s.yielders = [3] ∧ s.paused = [2] ∧ s.active = true := by decide
/-- somebody is due in this round, with another ahead: 1 started 2 which started 3 -/
example : let s := ((({} : Sco).step .mainStart).step .start).step .start
    s.runners = [1] ++ 2 :: [] ∧ s.cur = some 3 := by decide

end Neco.Sco
