import Verif.Proof.RtDlq
import Verif.Props.RtWait
/-!
# The order in which expired deadlines wake (C10)
-/
namespace Neco.Rt
open Neco.Err

/-- the deadline of the call in which `i` is blocked, if it has one that can expire: the deadline it gave,
except that taking the mutex again at the end of `neco_cond_wait` has none -/
def due (s : S) (i : Nat) (dl : Int) : Prop :=
  Blocked s i ∧ ¬ Relocking s i ∧ (∃ c, pending i s.log = some c ∧ callDl c = some dl) ∧ dl < MAX

/-- where the deadline of a blocked coroutine is recorded -/
theorem due_iff {s : S} (r : Reach any s) (hf : s.fault = false) (i : Nat) (dl : Int) :
    due s i dl ↔ i ∈ s.sco.paused ∧ i ∈ s.dlq ∧ (s.co i).deadline = dl := by
  have hF := (reach_invF r).cf i
  constructor
  · rintro ⟨hb, hr, ⟨c, hp, hd⟩, h1⟩
    have hw : (s.co i).pc ≠ .workWait := by
      intro e
      have := (reach_invN r hf i).ft
      unfold fits at this; rw [e] at this; simp only at this
      rw [((pending_call r).mp hp).1] at this; subst this; cases hd
    obtain ⟨b, hpc, dl', hbc, hdl, hpz⟩ := blocked_blk r hb hp hw
    have he : dl' = dl := by
      cases b <;> simp [BlkC] at hbc <;> first | (subst hbc; simpa [callDl] using hd) | (obtain ⟨_, rfl⟩ := hbc; simpa [callDl] using hd) | (obtain ⟨_, _, rfl⟩ := hbc; simpa [callDl] using hd) | (exact absurd hpc hr) | skip
      · rename_i h; obtain ⟨_, rfl⟩ := h; simpa [callDl] using hd
      · rename_i x; cases x <;> simp only at hbc <;> obtain ⟨_, rfl⟩ := hbc <;> simpa [callDl] using hd
      · rename_i h; subst h; simpa [callDl] using hd
    subst he
    exact ⟨hb, hF.dq.mpr ⟨hpz, by rw [hdl]; exact h1⟩, hdl⟩
  · rintro ⟨hb, hq, he⟩
    obtain ⟨hpz, hlt⟩ := hF.dq.1 hq
    have hbk := hF.pb hpz
    cases hpc : (s.co i).pc with
    | blk b =>
      obtain ⟨dl', h1, h2⟩ := hF.bc b hpc
      have h2 := h2 hpz
      rw [he] at h2 hlt; subst h2
      have hcd : callDl (s.co i).call = some dl := by
        rcases h1.dl with h | h
        · exact h
        · subst h; exact absurd hlt (Int.lt_irrefl _)
      refine ⟨hb, ?_, ⟨(s.co i).call, (pending_call r).mpr ⟨rfl, h1.call_ne.1⟩, hcd⟩, hlt⟩
      intro e
      unfold Relocking at e
      rw [hpc] at e; cases e
      have := h1.2
      subst this; exact absurd hlt (Int.lt_irrefl _)
    | _ => rw [hpc] at hbk; cases hbk

/-- C10. The deadline stage of a pass makes ready exactly the coroutines blocked in a call whose deadline has
passed, and puts them into the queue of ready coroutines in order of (deadline, identifier), behind those
already there. -/
theorem C10_pass {s s' : S} (r : Reach any s) (hc : s.sco.cur = none) (hm : s.main = .dl) (hs : step s .tau = some s') :
    ∃ q, s'.sco.yielders = s.sco.yielders ++ q ∧
      (∀ i, i ∈ q ↔ ∃ dl, due s i dl ∧ dl < s.clock) ∧
      q.Pairwise (fun i j => ∃ a b, due s i a ∧ due s j b ∧ (a < b ∨ (a = b ∧ i < j))) := by
  have hf := step_nofault hs
  have hg := step_guard hs
  unfold step at hs; rw [if_neg hg] at hs; simp only [hc, tauMain, hm] at hs; cases hs
  have hsrt := reach_sorted r
  have hnd : (s.dlq.filter (fun i => decide ((s.co i).deadline < s.clock))).Nodup := by
    refine List.Pairwise.imp ?_ (hsrt.sublist List.filter_sublist)
    intro a b h e; subst e; unfold dlLt at h; omega
  have he := wakeAll_queue (s := markDl s (s.dlq.filter (fun i => decide ((s.co i).deadline < s.clock)))) hc hnd
  refine ⟨_, he, ?_, ?_⟩
  · intro i
    simp only [List.mem_filter, decide_eq_true_eq]
    constructor
    · rintro ⟨⟨h1, h2⟩, h3⟩
      exact ⟨_, (due_iff r hf i _).2 ⟨h3, h1, rfl⟩, h2⟩
    · rintro ⟨dl, h1, h2⟩
      obtain ⟨a, b, c⟩ := (due_iff r hf i _).1 h1
      exact ⟨⟨b, by rw [c]; exact h2⟩, a⟩
  · have hp := (hsrt.sublist List.filter_sublist).sublist (l₁ := (s.dlq.filter (fun i => decide ((s.co i).deadline < s.clock))).filter (fun i => decide (i ∈ s.sco.paused))) (List.filter_sublist)
    rw [List.pairwise_iff_forall_sublist] at hp ⊢
    intro a b hab
    have ha := hab.subset (show a ∈ [a, b] by simp)
    have hb := hab.subset (show b ∈ [a, b] by simp)
    simp only [List.mem_filter, decide_eq_true_eq] at ha hb
    exact ⟨_, _, (due_iff r hf a _).2 ⟨ha.2, ha.1.1, rfl⟩, (due_iff r hf b _).2 ⟨hb.2, hb.1.1, rfl⟩, hp hab⟩

/-- The loop of the code stops at the first coroutine of the deadline queue whose deadline has not passed; it
visits the same ones as a walk over the whole queue. -/
theorem C10_loop {s : S} (r : Reach any s) :
    s.dlq.takeWhile (fun i => decide ((s.co i).deadline < s.clock)) = s.dlq.filter (fun i => decide ((s.co i).deadline < s.clock)) := by
  symm
  refine filter_takeWhile (R := dlLt s.co) ?_ (reach_sorted r)
  intro a b h hb
  simp only [decide_eq_true_eq] at hb ⊢
  unfold dlLt at h; omega

/-- three coroutines sleep until 3000, 1000 and 1000; the pass at time 5000 makes them ready in the order 2, 3, 1 -/
example : ∃ s s', Reach any s ∧ s.sco.cur = none ∧ s.main = .dl ∧ step s .tau = some s' ∧ s.sco.yielders = [] ∧ s'.sco.yielders = [2, 3, 1] := by
  obtain ⟨s, r, h⟩ := scriptA [.on 1 (.call .start), .on 1 (.call .start), .on 3 (.call (.sleep 1000)), .on 2 (.call (.sleep 1000)), .on 1 (.call (.sleep 3000)),
      .raw (.clock 5000), .til (fun s => s.main == .dl)]
    (p := fun s => s.sco.cur == none && s.main == .dl && (step s .tau).any (fun s' => s.sco.yielders == [] && s'.sco.yielders == [2, 3, 1])) (by decide +kernel)
  simp only [Bool.and_eq_true] at h
  obtain ⟨⟨h1, h2⟩, h3⟩ := h
  cases hs : step s .tau with
  | none => rw [hs] at h3; cases h3
  | some s' =>
    rw [hs] at h3; simp at h3
    exact ⟨s, s', r, by simpa using h1, by simpa using h2, hs, by simpa using h3.1, by simpa using h3.2⟩

end Neco.Rt
