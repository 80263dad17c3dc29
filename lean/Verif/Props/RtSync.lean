import Verif.Proof.RtWg
import Verif.Props.RtLock
/-!
# Wait groups and condition variables (C25-C29)
-/
namespace Neco.Rt
open Neco.Err

/-! ## C25 counting -/

/-- `neco_waitgroup_add` succeeds exactly if the counter does not become negative, and says `NECO_NEGWAITGRP` otherwise -/
theorem C25_add {ok} {s : S} (r : Reach ok s) {i w : Nat} {d v : Int} {x : Msg} {b : List Ev} (h : Returns s i (.wgAdd w d) v x)
    (hb : s.log = since i s.log ++ .call i (.wgAdd w d) :: b) : (v = OK ∧ 0 ≤ wgCount w b + d) ∨ (v = NEGWAITGRP ∧ wgCount w b + d < 0) := by
  obtain ⟨s0, s1, es, fs, r0, e0, hcur, hu, hs, e1, hf0, hf1, hl, hsi, hl1, ho, hr⟩ := returns_from r h hb
  subst e0
  have hcnt := reach_invWc r0 hf0 w
  have hw : (callSt s0 i (.wgAdd w d)).wg w = s0.wg w := rfl
  subst e1
  simp only [doCall] at ho hf1
  unfold wgAdd at ho hf1
  dsimp only at ho hf1
  rw [hw] at ho hf1
  by_cases g1 : s0.wg w + d > 2147483647 ∨ s0.wg w + d < -2147483648
  · rw [if_pos g1] at hf1; cases hf1
  rw [if_neg g1] at ho
  by_cases g2 : s0.wg w + d < 0
  · rw [if_pos g2, pc_retv] at ho
    exact .inr ⟨ho _ rfl, by omega⟩
  · rw [if_neg g2, pc_retv] at ho
    exact .inl ⟨ho _ rfl, by omega⟩

/-- `neco_waitgroup_done` succeeds exactly if the counter is not zero, and says `NECO_NEGWAITGRP` otherwise -/
theorem C25_done {ok} {s : S} (r : Reach ok s) {i w : Nat} {v : Int} {x : Msg} {b : List Ev} (h : Returns s i (.wgDone w) v x)
    (hb : s.log = since i s.log ++ .call i (.wgDone w) :: b) : (v = OK ∧ 0 < wgCount w b) ∨ (v = NEGWAITGRP ∧ wgCount w b = 0) := by
  obtain ⟨s0, s1, es, fs, r0, e0, hcur, hu, hs, e1, hf0, hf1, hl, hsi, hl1, ho, hr⟩ := returns_from r h hb
  subst e0
  have hcnt := reach_invWc r0 hf0 w
  have hnn := wgCount_nonneg w s0.log
  have hw : (callSt s0 i (.wgDone w)).wg w = s0.wg w := rfl
  subst e1
  simp only [doCall] at ho
  by_cases g : s0.wg w = 0
  · unfold wgDone at ho
    rw [hw, if_pos g, pc_retv] at ho
    exact .inr ⟨ho _ rfl, by omega⟩
  · refine .inl ⟨ho OK ?_, by omega⟩
    unfold wgDone
    rw [hw, if_neg g]
    dsimp only
    (repeat' split)
    · rw [pc_retv]; rfl
    · rw [pc_scoResume, pc_retv]; rfl
    · obtain ⟨k, e⟩ := pc_yfsr (schedAll (setList (setWg (callSt s0 i (.wgDone w)) w (s0.wg w - 1)) (.wgQ w) []) (.wgQ w) ((setWg (callSt s0 i (.wgDone w)) w (s0.wg w - 1)).lists (.wgQ w))) i 0 (.ret OK)
      rw [e]; rfl
    · rw [pc_retv]; rfl

/-- the counter the library keeps is the one the history tells, and it is never negative -/
theorem C25_count {ok} {s : S} (r : Reach ok s) (hf : s.fault = false) (w : Nat) : s.wg w = wgCount w s.log ∧ 0 ≤ s.wg w := by
  rw [reach_invWc r hf w]
  exact ⟨rfl, wgCount_nonneg w _⟩

/-- `neco_waitgroup_wait` returns `NECO_OK` only if the counter was zero at some moment during the call -/
theorem C25_wait_partial {s : S} {i w : Nat} (f : Fresh i s) {dl : Int} {x : Msg} {b : List Ev} (h : Returns s i (.wgWait w dl) OK x)
    (hb : s.log = since i s.log ++ .call i (.wgWait w dl) :: b) : ∃ x y, since i s.log = x ++ y ∧ wgCount w (y ++ .call i (.wgWait w dl) :: b) = 0 := by
  have r := f.reach
  have e := (returns_ok f h).2.2
  have key : ∀ e, e ∈ since i s.log → (e = .wake (.wgQ w) i ∨ e = .nowait (.wgQ w) i) → ∃ x y, since i s.log = x ++ y ∧ wgCount w (y ++ .call i (.wgWait w dl) :: b) = 0 := by
    intro e he hk
    obtain ⟨x, y, hxy⟩ := List.append_of_mem he
    have hP := (reach_wgP r).split (a := x) (e := e) (b := y ++ .call i (.wgWait w dl) :: b) (by rw [hb, hxy]; simp)
    refine ⟨x ++ [e], y, by rw [hxy]; simp, ?_⟩
    rcases hk with rfl | rfl <;> exact hP
  rcases e rfl with e | e
  · exact key _ (mem_sn e) (.inl rfl)
  · exact key _ (mem_sn e) (.inr rfl)

/-! ## C26 waking the waiters -/

/-- the done that takes the counter to zero makes everybody in line ready -/
theorem C26_done_wakes {ok} {s s' : S} (r : Reach ok s) {k w : Nat} (hc : Running s k) (h1 : wgCount w s.log = 1) (hs : step s (.call (.wgDone w)) = some s') :
    s'.log = ((s.lists (.wgQ w)).map (fun n => Ev.wake (.wgQ w) n.owner)).reverse ++ .call k (.wgDone w) :: s.log ∧ s'.lists (.wgQ w) = [] := by
  have hcnt := reach_invWc r (step_nofault hs) w
  obtain ⟨_, _, e⟩ := step_call_of hs hc
  simp only [doCall] at e
  have h2 : (callSt s k (.wgDone w)).wg w = 1 := by show s.wg w = 1; omega
  rw [e, wgDone_log1 h2]
  exact ⟨rfl, wgDone_lists h2⟩

/-- who waits for a wait group is in line -/
theorem C26_queue_partial {s : S} {w i : Nat} (f : Fresh i s) {dl : Int} (h : Asleep s i) (hp : pending i s.log = some (.wgWait w dl)) : .co i ∈ s.lists (.wgQ w) := wg_in f h hp

/-- nobody waits for a wait group whose counter is zero, provided the counter was not brought to zero by `neco_waitgroup_add` with a negative delta
(see `C26_not_general`) -/
theorem C26_blocked_partial {s : S} (hf : s.fault = false) {w i : Nat} (f : Fresh i s) {dl : Int} (h : Asleep s i) (hp : pending i s.log = some (.wgWait w dl))
    (hz : NoZeroAdd w s.log) : wgCount w s.log ≠ 0 := by
  have r := f.reach
  rw [← reach_invWc r hf w]
  have := wg_in f h hp
  exact reach_invWq r hf w hz (by intro e; rw [e] at this; cases this)

/-! ## C27 signal and broadcast -/

/-- `neco_cond_signal` makes ready the first in line, and nobody else -/
theorem C27_signal {s s' : S} {k v : Nat} (hc : Running s k) (hs : step s (.call (.cvSignal v)) = some s') :
    s'.log = ((s.lists (.cvQ v)).head?.map (fun n => Ev.wake (.cvQ v) n.owner)).toList ++ .call k (.cvSignal v) :: s.log ∧ s'.lists (.cvQ v) = (s.lists (.cvQ v)).tail := by
  obtain ⟨_, _, e⟩ := step_call_of hs hc
  simp only [doCall] at e
  unfold cvSignal at e
  have hL : (callSt s k (.cvSignal v)).lists (.cvQ v) = s.lists (.cvQ v) := rfl
  split at e <;> rename_i hq <;> rw [hL] at hq <;> rw [e, hq]
  · exact ⟨by simp [callSt], by simp [callSt, hq]⟩
  · exact ⟨by simp [callSt], by simp [setList]⟩

/-- `neco_cond_broadcast` makes ready everybody in line -/
theorem C27_broadcast {s s' : S} {k v : Nat} (hc : Running s k) (hs : step s (.call (.cvBcast v)) = some s') :
    s'.log = ((s.lists (.cvQ v)).map (fun n => Ev.wake (.cvQ v) n.owner)).reverse ++ .call k (.cvBcast v) :: s.log ∧ s'.lists (.cvQ v) = [] := by
  obtain ⟨_, _, e⟩ := step_call_of hs hc
  simp only [doCall] at e
  unfold cvBcast at e
  rw [e, yfsr_log, schedAll_log, yfsr_lists]
  exact ⟨rfl, schedAll_lists (by simp) (by simp [setList])⟩

/-- the line in front of a condition is first come, first served: newcomers go to the end -/
theorem C27_order {s s' : S} {a : Act} (hs : step s a = some s') (v : Nat) :
    ∃ new, (s'.lists (.cvQ v)).Sublist (s.lists (.cvQ v) ++ new) ∧ ∀ n ∈ new, Running s n.owner := by
  obtain ⟨o, ho, hsub⟩ := step_subO hs (L := .cvQ v) (by simp) (by simp)
  exact ⟨o, hsub, ho⟩

/-- who sleeps in `neco_cond_wait` is in line, or waits for the mutex again -/
theorem C27_queue_partial {s : S} {v m i : Nat} (f : Fresh i s) {dl : Int} (h : Asleep s i) (hp : pending i s.log = some (.cvWait v m dl)) (hr : ¬ Relocking s i) :
    .co i ∈ s.lists (.cvQ v) := (cond_in f h hr hp).1

/-- who is in line is inside `neco_cond_wait` for this condition -/
theorem C27_in_line {ok} {s : S} (r : Reach ok s) {v : Nat} {n : Node} (h : n ∈ s.lists (.cvQ v)) : ∃ m dl, pending n.owner s.log = some (.cvWait v m dl) := by
  have hpl := (reach_invL r).pl _ _ h
  cases n with
  | case i x => exact hpl.elim
  | co i =>
    obtain ⟨_, m, dl, h2⟩ := hpl
    exact ⟨m, dl, (pending_call r).mpr ⟨h2, by simp⟩⟩

/-! ## C28 the mutex after waiting -/

/-- when `neco_cond_wait` returns, the caller holds the mutex for writing -- unless it did not start to wait because it had been canceled before -/
theorem C28_partial {s : S} {i v m : Nat} (f : Fresh i s) {dl x : Int} {d : Msg} (h : Returns s i (.cvWait v m dl) x d) :
    (i, false) ∈ holders m s.log ∨ (x = CANCELED ∧ .release m i ∉ since i s.log) := by
  have r := f.reach
  have e := (returns_ok f h).2.2
  obtain ⟨b, hb⟩ := returns_call r h
  rcases e.1 with ⟨h1, h2⟩ | h1
  · refine .inr ⟨h1, fun h3 => h2 ?_⟩
    rw [sn_since, List.mem_filter]
    exact ⟨h3, by simp [Ev.about]⟩
  · left
    obtain ⟨p, q, h2, h3⟩ := h1
    rw [sn_since] at h2
    obtain ⟨p', q', h4, h5, h6⟩ : ∃ p' q', since i s.log = p' ++ .release m i :: q' ∧ p'.filter (Ev.about i) = p ∧ q'.filter (Ev.about i) = q := by
      obtain ⟨l1, l2, h7, h8, h9⟩ := List.filter_eq_append_iff.mp h2
      obtain ⟨l3, l4, h10, h11, h12, h13⟩ := List.filter_eq_cons_iff.mp h9
      refine ⟨l1 ++ l3, l4, by rw [h7, h10]; simp, ?_, h13⟩
      rw [List.filter_append, h8, List.filter_eq_nil_iff.mpr h11]; simp
    rw [hb, h4, List.append_assoc]
    have hg : .grant m i false ∈ p' := by
      rw [← h5] at h3; exact (List.mem_filter.mp h3).1
    exact mem_holders (no_release_after r h4) hg

/-! ## C29 no lost wake-ups -/

/-- if nobody is in line for the mutex, `neco_cond_wait` releases it and joins the line of the condition in one step.  (Missing: if somebody is in line for the
mutex, the caller first yields to it, see `C29_not_general`.) -/
theorem C29_partial {s s' : S} {i v m : Nat} {dl : Int} (hc : Running s i) (hs : step s (.call (.cvWait v m dl)) = some s') {es : List Ev} (hl : s'.log = es ++ s.log)
    (hr : .release m i ∈ es) (hq : queue s m = []) : .co i ∈ s'.lists (.cvQ v) := by
  obtain ⟨_, _, e⟩ := step_call_of hs hc
  simp only [doCall] at e
  unfold cvWait at e
  have hq' : s.lists (.muQ m) = [] := by unfold queue at hq; simpa using hq
  have hL : (callSt s i (.cvWait v m dl)).lists (.muQ m) = [] := hq'
  split at e
  · exfalso
    have : es = [.call i (.cvWait v m dl)] := by
      apply List.append_cancel_right (bs := s.log)
      rw [← hl, e]; rfl
    rw [this] at hr; simp at hr
  · have hh : unlockHands (callSt s i (.cvWait v m dl)) m = false := by
      unfold unlockHands; rw [hL]; simp
    rw [hh] at e
    simp only [Bool.false_eq_true, if_false] at e
    rw [e]
    unfold cvEnq
    dsimp only
    rw [copause_lists]
    simp [push, setList]

/-! ## Cases, and counterexamples -/

/-- 2 and 3 wait for wait group 0, whose counter is 1 -/
def wgTwo : List Sc := [.on 1 (.call (.wgAdd 0 1)), .on 1 (.call .start), .on 2 (.call (.wgWait 0 MAX)), .on 1 (.call .start), .on 3 (.call (.wgWait 0 MAX))]

/-- an add that succeeds, and one that is refused -/
example : ∃ s b, Fresh 1 s ∧ Returns s 1 (.wgAdd 0 2) OK 0 ∧ s.log = since 1 s.log ++ .call 1 (.wgAdd 0 2) :: b ∧ wgCount 0 b = 1 :=
  histF [.on 1 (.call (.wgAdd 0 1)), .on 1 (.call (.wgAdd 0 2))] (q := fun b => decide (wgCount 0 b = 1)) (by decide +kernel) |>.elim fun s h => h.elim fun b h => ⟨s, b, h.1, h.2.1, h.2.2.1, of_decide_eq_true h.2.2.2⟩
example : ∃ s b, Fresh 1 s ∧ Returns s 1 (.wgAdd 0 (-2)) NEGWAITGRP 0 ∧ s.log = since 1 s.log ++ .call 1 (.wgAdd 0 (-2)) :: b ∧ wgCount 0 b = 1 :=
  histF [.on 1 (.call (.wgAdd 0 1)), .on 1 (.call (.wgAdd 0 (-2)))] (q := fun b => decide (wgCount 0 b = 1)) (by decide +kernel) |>.elim fun s h => h.elim fun b h => ⟨s, b, h.1, h.2.1, h.2.2.1, of_decide_eq_true h.2.2.2⟩
/-- a done that succeeds, and one that is refused -/
example : ∃ s b, Fresh 1 s ∧ Returns s 1 (.wgDone 0) OK 0 ∧ s.log = since 1 s.log ++ .call 1 (.wgDone 0) :: b ∧ wgCount 0 b = 1 :=
  histF (wgTwo ++ [.on 1 (.call (.wgDone 0))]) (q := fun b => decide (wgCount 0 b = 1)) (by decide +kernel) |>.elim fun s h => h.elim fun b h => ⟨s, b, h.1, h.2.1, h.2.2.1, of_decide_eq_true h.2.2.2⟩
example : ∃ s b, Fresh 1 s ∧ Returns s 1 (.wgDone 0) NEGWAITGRP 0 ∧ s.log = since 1 s.log ++ .call 1 (.wgDone 0) :: b ∧ wgCount 0 b = 0 :=
  histF (wgTwo ++ [.on 1 (.call (.wgDone 0)), .on 1 (.call (.wgDone 0))]) (q := fun b => decide (wgCount 0 b = 0)) (by decide +kernel) |>.elim fun s h => h.elim fun b h => ⟨s, b, h.1, h.2.1, h.2.2.1, of_decide_eq_true h.2.2.2⟩
/-- a wait that began when the counter was 1 returns `NECO_OK` -/
example : ∃ s b, Fresh 2 s ∧ Returns s 2 (.wgWait 0 MAX) OK 0 ∧ s.log = since 2 s.log ++ .call 2 (.wgWait 0 MAX) :: b ∧ wgCount 0 b = 1 :=
  histF (wgTwo ++ [.on 1 (.call (.wgDone 0))]) (q := fun b => decide (wgCount 0 b = 1)) (by decide +kernel) |>.elim fun s h => h.elim fun b h => ⟨s, b, h.1, h.2.1, h.2.2.1, of_decide_eq_true h.2.2.2⟩
/-- both wait, and the done wakes both -/
example : ∃ s, Fresh 2 s ∧ s.fault = false ∧ Asleep s 2 ∧ pending 2 s.log = some (.wgWait 0 MAX) ∧ wgCount 0 s.log = 1 := by
  obtain ⟨s, r, h⟩ := scriptC wgTwo (p := fun s => decide (s.fault = false ∧ (2 ∈ s.sco.paused ∧ .co 2 ∉ s.lists .resumers) ∧ pending 2 s.log = some (.wgWait 0 MAX) ∧ wgCount 0 s.log = 1)) (by decide +kernel)
  have h := of_decide_eq_true h
  exact ⟨s, pending_fresh r h.2.2.1, h⟩
example : ∃ s s', Reach Clean s ∧ Running s 1 ∧ wgCount 0 s.log = 1 ∧ step s (.call (.wgDone 0)) = some s' ∧
    s'.log = .wake (.wgQ 0) 3 :: .wake (.wgQ 0) 2 :: .call 1 (.wgDone 0) :: s.log := by
  obtain ⟨s, r, h⟩ := scriptC (wgTwo ++ [.til (turn 1)])
    (p := fun s => decide (s.sco.cur = some 1 ∧ wgCount 0 s.log = 1 ∧ (step s (.call (.wgDone 0))).map (fun t => t.log) = some (.wake (.wgQ 0) 3 :: .wake (.wgQ 0) 2 :: .call 1 (.wgDone 0) :: s.log))) (by decide +kernel)
  obtain ⟨h1, h2, h3⟩ := of_decide_eq_true h
  obtain ⟨s', h4, h5⟩ := Option.map_eq_some_iff.mp h3
  exact ⟨s, s', r, h1, h2, h4, h5⟩

/-- **False of the code**: if `neco_waitgroup_add` with a negative delta brings the counter to zero, the waiters go on sleeping -/
theorem C26_not_general : ¬ ∀ (s : S) (i w : Nat) (dl : Int), Reach Clean s → s.fault = false → Asleep s i → pending i s.log = some (.wgWait w dl) → wgCount w s.log ≠ 0 := by
  intro h
  obtain ⟨s, r, hp⟩ := scriptC (wgTwo ++ [.on 1 (.call (.wgAdd 0 (-1)))])
    (p := fun s => decide (s.fault = false ∧ (2 ∈ s.sco.paused ∧ .co 2 ∉ s.lists .resumers) ∧ pending 2 s.log = some (.wgWait 0 MAX) ∧ wgCount 0 s.log = 0)) (by decide +kernel)
  obtain ⟨h1, h2, h3, h4⟩ := of_decide_eq_true hp
  exact h s 2 0 MAX r h1 h2 h3 h4

/-- **False of the code** if stale wake-ups happen: `neco_waitgroup_wait` returns `NECO_OK` although the counter was never zero during the call -/
theorem C25_wait_not_general : ¬ ∀ (s : S) (i w : Nat) (dl : Int) (d : Msg) (b : List Ev), Reach any s → Returns s i (.wgWait w dl) OK d →
    s.log = since i s.log ++ .call i (.wgWait w dl) :: b → ∃ x y, since i s.log = x ++ y ∧ wgCount w (y ++ .call i (.wgWait w dl) :: b) = 0 := by
  intro h
  obtain ⟨s, r, hp⟩ := scriptA [.on 1 (.call (.wgAdd 0 1)), .on 1 (.call .start), .on 2 (.call .work), .raw (.submit true), .on 1 (.call (.cancel 2 MAX)), .on 2 (.call (.wgWait 0 MAX)), .on 2 (.call (.wgWait 0 MAX)),
      .on 1 (.call .getid), .raw (.wdone 2), .on 1 (.call .start), .on 3 (.call .work), .raw (.submit true)]
    (p := fun s => histB 2 (.wgWait 0 MAX) OK 0 (fun b => (List.range (since 2 s.log).length.succ).all fun n => decide (wgCount 0 (((since 2 s.log).drop n) ++ .call 2 (.wgWait 0 MAX) :: b) = 1)) s) (by decide +kernel)
  simp only [histB, Bool.and_eq_true, decide_eq_true_eq] at hp
  obtain ⟨⟨h1, h2⟩, h3⟩ := hp
  obtain ⟨x, y, e1, e2⟩ := h s 2 0 MAX 0 _ r (returnsB_iff.mp h1) h2
  have := of_decide_eq_true (List.all_eq_true.mp h3 x.length (by rw [List.mem_range, e1]; simp; omega))
  rw [e1, List.drop_left] at this
  rw [this] at e2; cases e2

/-- 2 and 3 wait for condition 0 -/
def cvTwo : List Sc := [.on 1 (.call .start), .on 2 (.call (.lock 0 MAX)), .on 2 (.call (.cvWait 0 0 MAX)), .on 1 (.call .start), .on 3 (.call (.lock 0 MAX)), .on 3 (.call (.cvWait 0 0 MAX))]
example : ∃ s, Fresh 2 s ∧ Asleep s 2 ∧ pending 2 s.log = some (.cvWait 0 0 MAX) ∧ ¬ Relocking s 2 ∧ s.lists (.cvQ 0) = [.co 2, .co 3] := by
  obtain ⟨s, r, h⟩ := scriptC cvTwo (p := fun s => decide ((2 ∈ s.sco.paused ∧ .co 2 ∉ s.lists .resumers) ∧ pending 2 s.log = some (.cvWait 0 0 MAX) ∧ (s.co 2).pc ≠ .blk .relock ∧ s.lists (.cvQ 0) = [.co 2, .co 3])) (by decide +kernel)
  have h := of_decide_eq_true h
  exact ⟨s, pending_fresh r h.2.1, h⟩
example : ∃ s s', Reach Clean s ∧ Running s 1 ∧ step s (.call (.cvSignal 0)) = some s' ∧ s'.log = .wake (.cvQ 0) 2 :: .call 1 (.cvSignal 0) :: s.log := by
  obtain ⟨s, r, h⟩ := scriptC (cvTwo ++ [.til (turn 1)])
    (p := fun s => decide (s.sco.cur = some 1 ∧ (step s (.call (.cvSignal 0))).map (fun t => t.log) = some (.wake (.cvQ 0) 2 :: .call 1 (.cvSignal 0) :: s.log))) (by decide +kernel)
  obtain ⟨h1, h3⟩ := of_decide_eq_true h
  obtain ⟨s', h4, h5⟩ := Option.map_eq_some_iff.mp h3
  exact ⟨s, s', r, h1, h4, h5⟩
example : ∃ s s', Reach Clean s ∧ Running s 1 ∧ step s (.call (.cvBcast 0)) = some s' ∧ s'.log = .wake (.cvQ 0) 3 :: .wake (.cvQ 0) 2 :: .call 1 (.cvBcast 0) :: s.log := by
  obtain ⟨s, r, h⟩ := scriptC (cvTwo ++ [.til (turn 1)])
    (p := fun s => decide (s.sco.cur = some 1 ∧ (step s (.call (.cvBcast 0))).map (fun t => t.log) = some (.wake (.cvQ 0) 3 :: .wake (.cvQ 0) 2 :: .call 1 (.cvBcast 0) :: s.log))) (by decide +kernel)
  obtain ⟨h1, h3⟩ := of_decide_eq_true h
  obtain ⟨s', h4, h5⟩ := Option.map_eq_some_iff.mp h3
  exact ⟨s, s', r, h1, h4, h5⟩
/-- a wait returns after a signal, the mutex being held by the signaller at first -/
example : ∃ s, Fresh 2 s ∧ Returns s 2 (.cvWait 0 0 MAX) OK 0 :=
  retF (cvTwo ++ [.on 1 (.call (.lock 0 MAX)), .on 1 (.call (.cvSignal 0)), .on 1 (.call .yield), .on 1 (.call (.unlock 0))]) (by decide +kernel)
/-- a wait that is canceled waits for the mutex, too -/
example : ∃ s, Fresh 2 s ∧ Returns s 2 (.cvWait 0 0 MAX) CANCELED 0 :=
  retF (cvTwo ++ [.on 1 (.call (.lock 0 MAX)), .on 1 (.call (.cancel 2 MAX)), .on 1 (.call .yield), .on 1 (.call (.unlock 0))]) (by decide +kernel)
/-- releasing the mutex and joining the line in one step -/
example : ∃ s s', Reach Clean s ∧ Running s 1 ∧ queue s 0 = [] ∧ step s (.call (.cvWait 0 0 MAX)) = some s' ∧ s'.log = [.release 0 1, .call 1 (.cvWait 0 0 MAX)] ++ s.log := by
  obtain ⟨s, r, h⟩ := scriptC [.on 1 (.call (.lock 0 MAX)), .til (turn 1)]
    (p := fun s => decide (s.sco.cur = some 1 ∧ queue s 0 = [] ∧ (step s (.call (.cvWait 0 0 MAX))).map (fun t => t.log) = some ([.release 0 1, .call 1 (.cvWait 0 0 MAX)] ++ s.log))) (by decide +kernel)
  obtain ⟨h1, h2, h3⟩ := of_decide_eq_true h
  obtain ⟨s', h4, h5⟩ := Option.map_eq_some_iff.mp h3
  exact ⟨s, s', r, h1, h2, h4, h5⟩

/-- **False of the code** if stale wake-ups happen: `neco_cond_wait` returns without the mutex -/
theorem C28_not_general : ¬ ∀ (s : S) (i v m : Nat) (dl x : Int) (d : Msg), Reach any s → Disciplined s.log → Returns s i (.cvWait v m dl) x d →
    (i, false) ∈ holders m s.log ∨ (x = CANCELED ∧ .release m i ∉ since i s.log) := by
  intro h
  obtain ⟨s, r, hp⟩ := scriptA [.on 1 (.call .start), .on 2 (.call .work), .raw (.submit true), .on 1 (.call (.cancel 2 MAX)), .on 2 (.call .getid), .on 2 (.call (.lock 0 MAX)), .on 2 (.call (.lock 0 MAX)), .on 2 (.call (.cvWait 0 0 MAX)),
      .on 1 (.call (.lock 0 MAX)), .on 1 (.call (.cvSignal 0)), .on 1 (.call .yield), .on 1 (.call .getid),
      .raw (.wdone 2), .on 1 (.call .start), .on 3 (.call .work), .raw (.submit true)]
    (p := fun s => returnsB s 2 (.cvWait 0 0 MAX) OK 0 && decide (holders 0 s.log = [(1, false)]) && disciplinedB s.log) (by decide +kernel)
  simp only [Bool.and_eq_true, decide_eq_true_eq] at hp
  obtain ⟨⟨h1, h2⟩, h3⟩ := hp
  rcases h s 2 0 0 MAX OK 0 r (disciplinedB_iff.mp h3) (returnsB_iff.mp h1) with h4 | h4
  · rw [h2] at h4; simp at h4
  · exact absurd h4.1 (by decide)

/-- **False of the code**: a coroutine in `neco_cond_wait` that is handed the mutex and canceled before it runs again waits for the mutex it holds itself, for ever -/
theorem C28_self_not_general : ¬ ∀ (s : S) (i v m : Nat) (dl : Int), Reach Clean s → Disciplined s.log → Asleep s i → pending i s.log = some (.cvWait v m dl) → (i, false) ∉ holders m s.log := by
  intro h
  obtain ⟨s, r, hp⟩ := scriptC [.on 1 (.call .start), .on 2 (.call (.lock 0 MAX)), .on 2 (.call (.cvWait 0 0 MAX)), .on 1 (.call (.lock 0 MAX)), .on 1 (.call (.cvSignal 0)), .on 1 (.call .yield), .on 1 (.call .start), .on 3 (.call .yield),
      .on 1 (.call (.unlock 0)), .on 3 (.call (.cancel 2 MAX)), .til (fun s => decide ((2 ∈ s.sco.paused ∧ .co 2 ∉ s.lists .resumers)))]
    (p := fun s => decide ((2 ∈ s.sco.paused ∧ .co 2 ∉ s.lists .resumers) ∧ pending 2 s.log = some (.cvWait 0 0 MAX) ∧ holders 0 s.log = [(2, false)]) && disciplinedB s.log) (by decide +kernel)
  simp only [Bool.and_eq_true, decide_eq_true_eq] at hp
  obtain ⟨⟨h1, h2, h3⟩, h4⟩ := hp
  exact h s 2 0 0 MAX r (disciplinedB_iff.mp h4) h1 h2 (by rw [h3]; simp)

/-- **False of the code**: if somebody is in line for the mutex, `neco_cond_wait` hands it over and yields before it joins the line of the condition; a signal
sent by the new holder is lost -/
theorem C29_not_general : ¬ ∀ (s s' : S) (i k v m : Nat) (dl : Int), Reach Clean s → Disciplined s.log → pending i s.log = some (.cvWait v m dl) → .release m i ∈ since i s.log →
    .wake (.cvQ v) i ∉ since i s.log → Running s k → holders m s.log = [(k, false)] → step s (.call (.cvSignal v)) = some s' → ∃ j, s'.log = .wake (.cvQ v) j :: .call k (.cvSignal v) :: s.log := by
  intro h
  obtain ⟨s, r, hp⟩ := scriptC [.on 1 (.call (.lock 0 MAX)), .on 1 (.call .start), .on 2 (.call (.lock 0 MAX)), .on 1 (.call (.cvWait 0 0 MAX)), .til (turn 2)]
    (p := fun s => decide (pending 1 s.log = some (.cvWait 0 0 MAX) ∧ .release 0 1 ∈ since 1 s.log ∧ .wake (.cvQ 0) 1 ∉ since 1 s.log ∧ s.sco.cur = some 2 ∧ holders 0 s.log = [(2, false)] ∧
      (step s (.call (.cvSignal 0))).map (fun t => t.log) = some (.call 2 (.cvSignal 0) :: s.log)) && disciplinedB s.log) (by decide +kernel)
  simp only [Bool.and_eq_true, decide_eq_true_eq] at hp
  obtain ⟨⟨h1, h2, h3, h4, h5, h6⟩, h7⟩ := hp
  obtain ⟨s', h8, h9⟩ := Option.map_eq_some_iff.mp h6
  obtain ⟨j, h10⟩ := h s s' 1 2 0 0 MAX r (disciplinedB_iff.mp h7) h1 h2 h3 h4 h5 h8
  rw [h9] at h10; simp at h10

end Neco.Rt
