import Verif.Proof.RtCancel3
import Verif.Props.RtSync
/-!
# Cancelation and cleanup handlers (C30-C32)
-/
namespace Neco.Rt
open Neco.Err

/-! ## C30 a cancel reaches only its target, once -/

/-- no coroutine is told of more cancelations than `neco_cancel` calls that named it.  (Partial: provided no coroutine is started in a control block that carries an old cancelation, see `C30_not_general`; and being terminated
at a yield is not counted, see `C30_twice_not_general`.) -/
theorem C30_partial {s : S} (r : Reach Unflagged s) (hf : s.fault = false) (i : Nat) : reported i s.log ≤ canceledTimes i s.log := by
  have := (reach_invCan r).le hf i
  omega

/-- an operation that returns `NECO_CANCELED`, or a termination by cancelation, uses up a cancel of this very coroutine that no earlier operation had reported -/
theorem C30_report_partial {s : S} (r : Reach Unflagged s) (hf : s.fault = false) {x b : List Ev} {e : Ev} {i : Nat} (h : s.log = x ++ e :: b)
    (he : (∃ c d, e = .ret i c CANCELED d) ∨ ∃ y, e = .kill i y) : reported i b < canceledTimes i b := by
  refine report_lt r hf h ?_
  rcases he with ⟨c, d, rfl⟩ | ⟨y, rfl⟩
  · exact .inl (by simp [reportsCancel])
  · cases y
    · exact .inl (by simp [reportsCancel])
    · exact .inr rfl

/-! ## C31 the cancelation state -/

/-- every cancel hits a coroutine whose cancelation state is enabled -/
theorem C31_enabled {ok} {s : S} (r : Reach ok s) {x b : List Ev} {k i : Nat} (h : s.log = x ++ .cancel k i :: b) : cancelOn s.envEnabled i b = true := by
  have e : rl s = x.filter Ev.rare ++ .cancel k i :: b.filter Ev.rare := by unfold rl; rw [h, List.filter_append]; rfl
  have := canceled_on r e k i rfl
  rwa [cancelOn_rl] at this

/-- a `neco_cancel` that returns `NECO_OK` has canceled the coroutine it names -/
theorem C31_target {ok} {s : S} (r : Reach ok s) {i t : Nat} {dl : Int} {d : Msg} (h : Returns s i (.cancel t dl) OK d) : .cancel i t ∈ since i s.log := by
  obtain ⟨h1, h2, h3, h4, h5⟩ := h.elim
  obtain ⟨s', hs, _⟩ := h
  exact (reach_invNf r (step_nofault hs) i t dl h3).d (.inr h2)

/-- `neco_cancel` returns `NECO_NOTFOUND` if no such coroutine is live when it is called -/
theorem C31_notfound {ok} {s : S} (r : Reach ok s) {i t : Nat} {dl v : Int} {d : Msg} {b : List Ev} (h : Returns s i (.cancel t dl) v d)
    (hb : s.log = since i s.log ++ .call i (.cancel t dl) :: b) (ht : t ∉ live b) : v = NOTFOUND := by
  obtain ⟨h1, h2, h3, h4, h5⟩ := h.elim
  obtain ⟨s', hs, _⟩ := h
  rcases ((reach_invNf r (step_nofault hs) i t dl h3).c b hb ht).2 with e | e
  · rw [h2] at e; cases e.1
  · rw [h2] at e; cases e; rfl

/-- and only if there is none when it returns -/
theorem C31_notfound_only {ok} {s : S} (r : Reach ok s) {i t : Nat} {dl : Int} {d : Msg} (h : Returns s i (.cancel t dl) NOTFOUND d) : t ∉ live s.log := by
  obtain ⟨h1, h2, h3, h4, h5⟩ := h.elim
  obtain ⟨s', hs, _⟩ := h
  rw [← all_live r]
  exact ((reach_invNf r (step_nofault hs) i t dl h3).a h2).2

/-- a canceler that waits, waits for a coroutine that is live.  (Partial: it may wait although cancelation was enabled again, see `C31_wait_not_general`.) -/
theorem C31_wait_partial {s : S} {i t : Nat} (f : Fresh i s) {dl : Int} (h : Asleep s i) (hp : pending i s.log = some (.cancel t dl)) : t ∈ live s.log := by
  have r := f.reach
  rw [← all_live r]
  exact reach_invQ r t _ (.inr (cancel_in f h hp))

/-! ## C32 cleanup handlers -/

/-- the handlers run at the end of a coroutine are the ones it pushed last, in reverse order, each once.  (Partial: provided every coroutine whose function returned had popped its handlers, see `C32_not_general`.) -/
theorem C32_partial {ok} {s : S} (r : Reach ok s) (hp : Paired s.log) {i : Nat} (hi : i ≤ s.sco.nextId) : ran i s.log <+: handlers i s.log :=
  ran_prefix r hp hi

/-- and when the coroutine has ended they have all run -/
theorem C32_all_partial {ok} {s : S} (r : Reach ok s) (hf : s.fault = false) (hp : Paired s.log) {i : Nat} (he : .exit i ∈ s.log) : ran i s.log = handlers i s.log :=
  ran_all r hf hp he

/-- a handler runs only at the end of its coroutine, as the next one in line, or when it is popped with `execute` set -/
theorem C32_when_partial {ok} {s : S} (r : Reach ok s) {x b : List Ev} {i h : Nat} (e : s.log = x ++ .clean i h :: b) (hp : Paired b) :
    (dying i b = true ∧ (ran i b ++ [h]) <+: handlers i b) ∨
    (dying i b = false ∧ ∃ b', b = since i b ++ .call i (.cpop true) :: b' ∧ (handlers i b').head? = some h) := by
  have e' : rl s = x.filter Ev.rare ++ .clean i h :: b.filter Ev.rare := by unfold rl; rw [e, List.filter_append]; rfl
  have hp' : Paired (b.filter Ev.rare) := by
    intro y c j ey hd
    obtain ⟨x', y', e1, e2, e3⟩ := List.filter_eq_append_iff.mp ey
    obtain ⟨l1, l2, e4, e5, e6, e7⟩ := List.filter_eq_cons_iff.mp e3
    subst e7
    rw [handlers_rl]
    rw [dying_rl] at hd
    exact hp (x' ++ l1) l2 j (by rw [e1, e4]; simp) hd
  rcases clean_why r e' i h rfl hp' with ⟨h1, h2⟩ | ⟨h1, b', h2, h3⟩
  · rw [dying_rl] at h1; rw [ran_rl, handlers_rl] at h2; exact .inl ⟨h1, h2⟩
  · rw [dying_rl] at h1
    obtain ⟨l1, l2, e4, e5, e6, e7⟩ := List.filter_eq_cons_iff.mp h2
    subst e7
    rw [handlers_rl] at h3
    refine .inr ⟨h1, l2, ?_, h3⟩
    rw [e4, since_append (fun e he => ?_)]
    · simp [since, isCallOf]
    · have := e5 e he
      cases e <;> first | rfl | (simp [Ev.rare] at this)

/-! ## Cases, and counterexamples -/

theorem unflagged {s : S} (r : Reach Clean s) : Reach Unflagged s := by
  induction r with
  | init a e => exact .init a e
  | @step s s' r a ho hs ih =>
    refine .step ih a (fun ha p hp => ?_) hs
    rcases ha with rfl | rfl
    all_goals
      obtain ⟨i, hc, _⟩ := step_call hs
      exact (ho _ i rfl hc).2.2.2.2 (by simp) p hp

/-- 1 cancels 2, which sleeps -/
def canTwo : List Sc := [.on 1 (.call .start), .on 2 (.call (.sleep MAX)), .on 1 (.call (.cancel 2 MAX))]

example : ∃ s, Reach Unflagged s ∧ s.fault = false ∧ reported 2 s.log = 1 ∧ canceledTimes 2 s.log = 1 := by
  obtain ⟨s, r, h⟩ := scriptC (canTwo ++ [.til (turn 2)]) (p := fun s => decide (s.fault = false ∧ reported 2 s.log = 1 ∧ canceledTimes 2 s.log = 1)) (by decide +kernel)
  have h := of_decide_eq_true h
  exact ⟨s, unflagged r, h⟩

/-- the sleep of 2 is about to return `NECO_CANCELED` -/
example : ∃ s d, Reach Unflagged s ∧ Returns s 2 (.sleep MAX) CANCELED d ∧ reported 2 s.log < canceledTimes 2 s.log := by
  obtain ⟨s, r, h⟩ := scriptC (canTwo ++ [.til (fun s => returnsB s 2 (.sleep MAX) CANCELED 0)]) (p := fun s => decide (returnsB s 2 (.sleep MAX) CANCELED 0 = true ∧ reported 2 s.log < canceledTimes 2 s.log)) (by decide +kernel)
  obtain ⟨h1, h2⟩ := of_decide_eq_true h
  exact ⟨s, 0, unflagged r, returnsB_iff.mp h1, h2⟩

/-- **False of the code** when control blocks are reused: 2 is canceled while it yields and ends without noticing; 3 is started in its control block; `neco_sleep` of 3 returns `NECO_CANCELED` although nobody canceled 3 -/
theorem C30_not_general : ¬ ∀ (s : S) (i : Nat), Reach any s → s.fault = false → reported i s.log ≤ canceledTimes i s.log := by
  intro h
  obtain ⟨s, r, hp⟩ := scriptA [.on 1 (.call .start), .on 2 (.call .yield), .on 1 (.call (.cancel 2 MAX)), .on 2 .finish, .on 1 (.call .start), .on 3 (.call (.sleep MAX)), .til (turn 3)]
    (p := fun s => decide (s.fault = false ∧ reported 3 s.log = 1 ∧ canceledTimes 3 s.log = 0)) (by decide +kernel)
  obtain ⟨h1, h2, h3⟩ := of_decide_eq_true hp
  have := h s 3 r h1
  omega

/-- an event that terminates coroutine `i` by cancelation -/
def kills (i : Nat) : Ev → Bool
  | .kill k _ => k == i
  | _ => false

/-- **False of the code**: one cancel can terminate a coroutine twice.  2 has asynchronous cancelation; it is canceled and its `neco_yield` terminates it; ending, it wakes the coroutine that joins it and yields to it, and finds itself canceled again -/
theorem C30_twice_not_general : ¬ ∀ (s : S) (i : Nat), Reach Clean s → s.fault = false → s.log.countP (kills i) ≤ canceledTimes i s.log := by
  intro h
  obtain ⟨s, r, hp⟩ := scriptC [.on 1 (.call .start), .on 2 (.call (.setType true)), .on 2 (.call .yield), .on 1 (.call .start), .on 3 (.call (.join 2 MAX)), .on 1 (.call (.cancel 2 MAX)), .til (fun s => decide (2 ≤ s.log.countP (kills 2)))]
    (p := fun s => decide (s.fault = false ∧ s.log.countP (kills 2) = 2 ∧ canceledTimes 2 s.log = 1)) (by decide +kernel)
  obtain ⟨h1, h2, h3⟩ := of_decide_eq_true hp
  have := h s 2 r h1
  omega

/-- 2 disables cancelation and goes on later; 1 waits to cancel it -/
def canOff : List Sc := [.on 1 (.call .start), .on 2 (.call (.setState false)), .on 2 (.call .yield), .on 1 (.call (.cancel 2 MAX)), .til (turn 2)]
example : ∃ s, Fresh 1 s ∧ Asleep s 1 ∧ pending 1 s.log = some (.cancel 2 MAX) ∧ cancelOn s.envEnabled 2 s.log = false := by
  obtain ⟨s, r, h⟩ := scriptC canOff (p := fun s => decide ((1 ∈ s.sco.paused ∧ .co 1 ∉ s.lists .resumers) ∧ pending 1 s.log = some (.cancel 2 MAX) ∧ cancelOn s.envEnabled 2 s.log = false)) (by decide +kernel)
  have h := of_decide_eq_true h
  exact ⟨s, pending_fresh r h.2.1, h⟩
/-- **False of the code**: enabling cancelation again does not wake those who wait to cancel: 1 sleeps on although 2, which it wants to cancel, allows it and has gone to sleep for good -/
theorem C31_wait_not_general : ¬ ∀ (s : S) (i t : Nat) (dl : Int), Reach Clean s → s.fault = false → Asleep s i → pending i s.log = some (.cancel t dl) → Asleep s t → cancelOn s.envEnabled t s.log = false := by
  intro h
  obtain ⟨s, r, hp⟩ := scriptC (canOff ++ [.on 2 (.call (.setState true)), .on 2 (.call (.suspend MAX))])
    (p := fun s => decide (s.fault = false ∧ (1 ∈ s.sco.paused ∧ .co 1 ∉ s.lists .resumers) ∧ pending 1 s.log = some (.cancel 2 MAX) ∧ (2 ∈ s.sco.paused ∧ .co 2 ∉ s.lists .resumers) ∧ cancelOn s.envEnabled 2 s.log = true)) (by decide +kernel)
  obtain ⟨h1, h2, h3, h4, h5⟩ := of_decide_eq_true hp
  have := h s 1 2 MAX r h1 h2 h3 h4
  rw [h5] at this; cases this
example : ∃ s b, Fresh 1 s ∧ Returns s 1 (.cancel 2 MAX) NOTFOUND 0 ∧ s.log = since 1 s.log ++ .call 1 (.cancel 2 MAX) :: b ∧ decide (2 ∉ live b) = true :=
  histF [.on 1 (.call .start), .on 2 .finish, .on 1 (.call (.cancel 2 MAX))] (q := fun b => decide (2 ∉ live b)) (by decide +kernel)
example : ∃ s, Fresh 1 s ∧ Returns s 1 (.cancel 2 MAX) OK 0 := retF canTwo (by decide +kernel)

/-- 2 pushes two handlers, pops one of three, and exits -/
def clTwo : List Sc := [.on 1 (.call .start), .on 2 (.call (.cpush 7)), .on 2 (.call (.cpush 8)), .on 2 (.call (.cpush 9)), .on 2 (.call (.cpop true)), .on 2 (.call .exit), .til (turn 1)]
example : ∃ s, Reach Clean s ∧ s.fault = false ∧ .exit 2 ∈ s.log ∧ ran 2 s.log = [8, 7] ∧ handlers 2 s.log = [8, 7] ∧ .clean 2 9 ∈ s.log := by
  obtain ⟨s, r, h⟩ := scriptC clTwo (p := fun s => decide (s.fault = false ∧ .exit 2 ∈ s.log ∧ ran 2 s.log = [8, 7] ∧ handlers 2 s.log = [8, 7] ∧ .clean 2 9 ∈ s.log)) (by decide +kernel)
  have h := of_decide_eq_true h
  exact ⟨s, r, h⟩
/-- `Paired` as a test -/
def pairedB : List Ev → Bool
  | [] => true
  | .exit i :: l => (dying i l || (handlers i l).isEmpty) && pairedB l
  | _ :: l => pairedB l
theorem pairedB_paired {l : List Ev} (h : pairedB l = true) : Paired l := by
  induction l with
  | nil => intro x b i e; cases x <;> simp at e
  | cons e l ih =>
    have hl : pairedB l = true := by cases e <;> simp [pairedB] at h <;> first | exact h | exact h.2
    intro x b i hx hd
    cases x with
    | cons y x => simp at hx; exact ih hl x b i hx.2 hd
    | nil =>
      simp at hx; obtain ⟨rfl, rfl⟩ := hx
      simp [pairedB, hd] at h; exact h.1
example : ∃ s, Reach Clean s ∧ s.fault = false ∧ Paired s.log ∧ .exit 2 ∈ s.log ∧ ran 2 s.log = [8, 7] := by
  obtain ⟨s, r, h⟩ := scriptC clTwo (p := fun s => decide (s.fault = false ∧ pairedB s.log = true ∧ .exit 2 ∈ s.log ∧ ran 2 s.log = [8, 7])) (by decide +kernel)
  obtain ⟨h1, h2, h3, h4⟩ := of_decide_eq_true h
  exact ⟨s, r, h1, pairedB_paired h2, h3, h4⟩
/-- **False of the code** when a function returns with a handler still pushed: the handler is left in the control block, and the next coroutine that uses it, here 3, runs it when it exits -/
theorem C32_not_general : ¬ ∀ (s : S) (i : Nat), Reach Clean s → s.fault = false → .exit i ∈ s.log → ran i s.log = handlers i s.log := by
  intro h
  obtain ⟨s, r, hp⟩ := scriptC [.on 1 (.call .start), .on 2 (.call (.cpush 7)), .on 2 .finish, .on 1 (.call .start), .on 3 (.call .exit), .til (turn 1)]
    (p := fun s => decide (s.fault = false ∧ .exit 3 ∈ s.log ∧ ran 3 s.log = [7] ∧ handlers 3 s.log = [])) (by decide +kernel)
  obtain ⟨h1, h2, h3, h4⟩ := of_decide_eq_true hp
  have := h s 3 r h1 h2
  rw [h3, h4] at this; cases this

end Neco.Rt
