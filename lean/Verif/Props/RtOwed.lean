import Verif.Proof.RtOwed2
import Verif.Props.RtCancel
/-!
# C66 a cancelation is not lost
-/
namespace Neco.Rt
open Neco.Err

/-- `neco_cancel` wakes the coroutine it cancels, whatever it waits for -/
theorem C66_wakes {ok} {s s' : S} {a : Act} {k i : Nat} (_ : Reach ok s) (hs : step s a = some s') (hl : s'.log = .cancel k i :: s.log) : ¬ Blocked s' i :=
  (cancel_marks (es := [.cancel k i]) hs (by unfold rl; rw [hl]; rfl) List.mem_cons_self).2.1

/-- a coroutine that was canceled and has not been told yet does not sleep, except in `neco_work`.  (Partial: not counting cancelations that arrive inside `neco_cond_wait`, see `C66_awake_not_general`.) -/
theorem C66_awake_partial {ok} {s : S} (r : Reach ok s) (hf : s.fault = false) {i : Nat} (ho : owedQ i s.log = true) (hb : Blocked s i) : pending i s.log = some .work := by
  have hF := (reach_invF r).cf i
  rcases hF.sp hb with ⟨h, _⟩ | h
  · exfalso
    rcases reach_hold r hf i ho with g | g
    · rw [hF.cn hb h] at g; cases g.1
    · rw [g] at h; cases h
  · have hft := (reach_invN r hf i).ft
    unfold fits at hft; rw [h] at hft
    exact (pending_call r).mpr ⟨hft, by simp⟩

/-- the next operation that can wait returns `NECO_CANCELED`, or a result for which it did not look for a cancelation.  (Partial: not counting cancelations that arrive inside `neco_cond_wait`, see `C66_next_not_general`.) -/
theorem C66_next_partial {ok} {s : S} (r : Reach ok s) {i : Nat} {c : Call} {v : Int} {d : Msg} {b : List Ev} (h : Returns s i c v d) (hc : (callDl c).isSome = true)
    (hb : s.log = since i s.log ++ .call i c :: b) (ho : owedQ i b = true) : v = CANCELED ∨ early c v := by
  obtain ⟨h1, h2, h3, h4, h5⟩ := h.elim
  obtain ⟨s', hs, _⟩ := h
  exact (reach_doom r (step_nofault hs) i c b h3 hc hb ho).ret h2

/-- an operation during which the sleeping caller is canceled returns `NECO_CANCELED`, unless it is `neco_cond_wait` waiting for the mutex again.  (`neco_cancel` may also find that its target has ended.) -/
theorem C66_during {s s1 s2 : S} {a : Act} {k i : Nat} {c : Call} {v : Int} {d : Msg} {es : List Ev} (r : Reach any s) (hs : step s a = some s1) (hl : s1.log = .cancel k i :: s.log)
    (hb : Blocked s i) (hr : ¬ Relocking s i) (hc : (callDl c).isSome = true) (l : Later s1 s2) (h : Returns s2 i c v d) (he : s2.log = es ++ s1.log) (hn : ∀ e ∈ es, isCallOf i e = false)
    (hp : pending i s.log = some c) : v = CANCELED ∨ ((∃ t dl, c = .cancel t dl) ∧ v = NOTFOUND) := by
  obtain ⟨h1, h2, h3, h4, h5⟩ := h.elim
  have hf2 : s2.fault = false := by obtain ⟨s', hs, _⟩ := h; exact step_nofault hs
  have hw := reach_scoWF r
  have hc0 := (pending_call r).mp hp
  obtain ⟨g1, _, _, g4⟩ := cancel_marks (es := [.cancel k i]) hs (by unfold rl; rw [hl]; rfl) List.mem_cons_self
  have hj : s.sco.cur ≠ some i := fun e => WF.cur_not_paused hw e hb
  have hF := (reach_invF r).cf i
  have hft := (reach_invN r (step_nofault hs) i).ft
  have m := step_other (reach_invL r) (reach_invC r) hs hj (fun ha => by rcases ha with ha | ha <;> exact absurd ha (g4 _)) hF.evU
  obtain ⟨b, hpc⟩ : ∃ b, (s.co i).pc = .blk b := by
    rcases hF.sp hb with ⟨h, _⟩ | h
    · revert h; cases (s.co i).pc <;> simp [Pc.isBlk]
    · unfold fits at hft; rw [h] at hft
      rw [hc0.1] at hft; subst hft; cases hc
  have hbr : b ≠ .relock := fun e => hr (by unfold Relocking; rw [hpc, e])
  have hD : Doom (fun v => (∃ t dl, c = .cancel t dl) ∧ v = NOTFOUND) (s1.co i) := by
    refine .inr (.inr (.inl ⟨g1, b, by rw [m.pc.1]; exact hpc, hbr, fun e => ⟨?_, rfl⟩⟩))
    subst e
    obtain ⟨dl, hbc, _⟩ := hF.bc _ hpc
    simp only [BlkC] at hbc
    obtain ⟨t, ht⟩ := hbc
    exact ⟨t, dl, by rw [← hc0.1]; exact ht⟩
  rcases later_doom (.step r a trivial hs) (by rw [m.pc.2]; exact hc0.1) hc hD l hf2 es he hn with ⟨_, g⟩ | g
  · exact g.ret h2
  · rw [h3] at g; subst g; cases hc

/-! ## Cases, and counterexamples -/

/-- 2 is canceled while it yields, then calls `neco_sleep` -/
def owedSleep : List Sc := [.on 1 (.call .start), .on 2 (.call .yield), .on 1 (.call (.cancel 2 MAX)), .on 2 (.call (.sleep MAX))]

example : ∃ s b, Reach Clean s ∧ Returns s 2 (.sleep MAX) CANCELED 0 ∧ s.log = since 2 s.log ++ .call 2 (.sleep MAX) :: b ∧ owedQ 2 b = true :=
  histC owedSleep (q := owedQ 2) (by decide +kernel)

/-- a send on a closed channel does not look for a cancelation -/
example : ∃ s b, Reach Clean s ∧ Returns s 2 (.send 0 7 MAX) CLOSED 0 ∧ s.log = since 2 s.log ++ .call 2 (.send 0 7 MAX) :: b ∧ owedQ 2 b = true :=
  histC [.on 1 (.call (.chMake 1)), .on 1 (.call .start), .on 1 (.call (.close 0)), .on 2 (.call .yield), .on 1 (.call (.cancel 2 MAX)), .on 2 (.call (.send 0 7 MAX))] (q := owedQ 2) (by decide +kernel)

/-- a canceled coroutine sleeps inside `neco_work` -/
example : ∃ s, Reach Clean s ∧ s.fault = false ∧ owedQ 2 s.log = true ∧ Blocked s 2 := by
  obtain ⟨s, r, h⟩ := scriptC [.on 1 (.call .start), .on 2 (.call .yield), .on 1 (.call (.cancel 2 MAX)), .on 2 (.call .work), .raw (.submit true)]
    (p := fun s => decide (s.fault = false ∧ owedQ 2 s.log = true ∧ 2 ∈ s.sco.paused)) (by decide +kernel)
  obtain ⟨h1, h2, h3⟩ := of_decide_eq_true h
  exact ⟨s, r, h1, h2, h3⟩

/-- some steps of the library -/
def goOn : Nat → S → Option S
  | 0, s => some s
  | n + 1, s => match step s .tau with
    | some t => goOn n t
    | none => none
theorem goOn_later {n : Nat} {s t u : S} (l : Later u s) (h : goOn n s = some t) : Later u t := by
  induction n generalizing s with
  | zero => cases h; exact l
  | succ n ih =>
    unfold goOn at h
    split at h
    · rename_i hs; exact ih (.step l hs) h
    · cases h
/-- the next step cancels 2 in `c`; `n` steps later the call returns -/
def duringB (c : Call) (n : Nat) (s : S) : Bool :=
  match step s .tau with
  | none => false
  | some s1 => decide (s1.log = .cancel 1 2 :: s.log) && s.sco.paused.contains 2 && decide ((s.co 2).pc ≠ .blk .relock) && decide (pending 2 s.log = some c) &&
    match goOn n s1 with
    | none => false
    | some s2 => returnsB s2 2 c CANCELED 0 && decide (s2.log = s2.log.take (s2.log.length - s1.log.length) ++ s1.log) && (s2.log.take (s2.log.length - s1.log.length)).all (fun e => !isCallOf 2 e)

/-- `neco_cond_wait` is canceled while it waits for the condition: it returns `NECO_CANCELED` -/
example : ∃ s s1 s2 es, Reach any s ∧ step s .tau = some s1 ∧ s1.log = .cancel 1 2 :: s.log ∧ Blocked s 2 ∧ ¬ Relocking s 2 ∧ Later s1 s2 ∧ Returns s2 2 (.cvWait 0 0 MAX) CANCELED 0 ∧
    s2.log = es ++ s1.log ∧ (∀ e ∈ es, isCallOf 2 e = false) ∧ pending 2 s.log = some (.cvWait 0 0 MAX) := by
  obtain ⟨s, r, h⟩ := scriptA [.on 1 (.call .start), .on 2 (.call (.lock 0 MAX)), .on 2 (.call (.cvWait 0 0 MAX)), .on 1 (.call (.cancel 2 MAX))] (p := duringB (.cvWait 0 0 MAX) 2) (by decide +kernel)
  unfold duringB at h
  split at h
  · cases h
  rename_i s1 hs
  simp only [Bool.and_eq_true, decide_eq_true_eq, List.contains_eq_mem] at h
  obtain ⟨⟨⟨⟨h1, h2⟩, h3⟩, h4⟩, h5⟩ := h
  split at h5
  · cases h5
  rename_i s2 h2s
  simp only [Bool.and_eq_true, decide_eq_true_eq] at h5
  obtain ⟨⟨g1, g2⟩, g3⟩ := h5
  refine ⟨s, s1, s2, _, r, hs, h1, h2, h3, goOn_later .refl h2s, returnsB_iff.mp g1, g2, fun e he => ?_, h4⟩
  have := List.all_eq_true.mp g3 e he
  simpa using this

/-- 2 waits for a condition, is signaled and waits for the mutex, which 1 holds; 1 cancels it and gives it the mutex; 2 calls `neco_sleep` -/
def lostCancel : List Sc := [.on 1 (.call .start), .on 2 (.call (.lock 0 MAX)), .on 2 (.call (.cvWait 0 0 MAX)), .on 1 (.call (.lock 0 MAX)), .on 1 (.call (.cvSignal 0)), .on 1 (.call .yield), .on 1 (.call .yield),
  .on 1 (.call (.cancel 2 MAX)), .on 1 (.call (.unlock 0)), .on 2 (.call (.sleep 5))]

/-- **False of the code** when the cancelation arrives while `neco_cond_wait` waits for its mutex: it is dropped, `neco_cond_wait` returns `NECO_OK` and the coroutine goes to sleep -/
theorem C66_awake_not_general : ¬ ∀ (s : S) (i : Nat), Reach Clean s → s.fault = false → owed i s.log = true → Blocked s i → pending i s.log = some .work := by
  intro h
  obtain ⟨s, r, hp⟩ := scriptC (lostCancel ++ [.til (fun s => decide (2 ∈ s.sco.paused))]) (p := fun s => decide (s.fault = false ∧ owed 2 s.log = true ∧ 2 ∈ s.sco.paused ∧ pending 2 s.log = some (.sleep 5))) (by decide +kernel)
  obtain ⟨h1, h2, h3, h4⟩ := of_decide_eq_true hp
  have := h s 2 r h1 h2 h3
  rw [h4] at this; cases this

/-- and the next `neco_mutex_lock` returns `NECO_OK` -/
theorem C66_next_not_general : ¬ ∀ (s : S) (i : Nat) (c : Call) (v : Int) (d : Msg) (b : List Ev), Reach Clean s → Returns s i c v d → (callDl c).isSome = true → s.log = since i s.log ++ .call i c :: b →
    owed i b = true → v = CANCELED ∨ early c v := by
  intro h
  obtain ⟨s, b, r, h1, h2, h3⟩ := histC (lostCancel.dropLast ++ [.on 2 (.call (.lock 1 MAX))]) (i := 2) (c := .lock 1 MAX) (v := OK) (d := 0) (q := owed 2) (by decide +kernel)
  rcases h s 2 _ _ _ _ r h1 rfl h2 h3 with h | h
  · exact absurd h (by decide)
  · exact h

end Neco.Rt
