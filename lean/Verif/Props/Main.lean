import Verif.Model.Main
/-!
# C82: how a program written with `neco_main` ends
-/
namespace Neco.Main

/-- The main function has returned `c`. -/
def Returned (s : S) (c : Int) : Prop := Ev.returned c ∈ s.log

/-- Every coroutine that began in the main thread has ended. -/
def AllEnded (s : S) : Prop := ∀ k, Ev.began 0 k ∈ s.log → Ev.ended 0 k ∈ s.log

structure Inv (s : S) : Prop where
  flag : ∀ t c, s.flag t = some c ↔ (t = 0 ∧ Returned s c)
  quit : (∃ c, Returned s c) → Ev.quit ∉ s.log
  run : s.main = .running → (∀ c, ¬ Returned s c) ∧ Ev.quit ∉ s.log
  over : s.over = false → ∀ x, Ev.status x ∉ s.log
  live : ∀ k, Ev.began 0 k ∈ s.log → (0, k) ∈ s.live ∨ Ev.ended 0 k ∈ s.log
  began : ∀ p ∈ s.live, Ev.began p.1 p.2 ∈ s.log
  nodup : s.live.Nodup
  since : ∀ a b c, s.log = a ++ .returned c :: b → s.over = false → ∀ k, Ev.ended 0 k ∉ a
  status : ∀ x, Ev.status x ∈ s.log →
    (Returned s x ∧ ∃ k l, s.log = .status x :: .ended 0 k :: l) ∨
    (x = -1 ∧ (∀ c, ¬ Returned s c) ∧ AllEnded s) ∨ (x = 160 ∧ Ev.broken ∈ s.log)
  here : (s.main = .running ∨ ∃ c, Returned s c) → s.over = false → (0, 1) ∈ s.live
  written : s.out ++ s.buf = (s.log.filterMap fun e => match e with | .print m => some m | _ => none).reverse

theorem inv_init : Inv init := by
  refine ⟨?_, ?_, ?_, ?_, ?_, ?_, by decide, ?_, ?_, ?_, rfl⟩
  · intro t c; simp [init, Returned]
  · rintro ⟨c, h⟩; simp [init, Returned] at h
  · intro _; simp [init, Returned]
  · intro _ x; simp [init]
  · intro k h; simp [init] at h ⊢; exact h
  · intro p h; simp [init] at h ⊢; subst h; simp
  · intro a b c h; cases a with
    | nil => cases h
    | cons x a => cases a <;> cases h
  · intro x h; simp [init] at h
  · intro _ _; simp [init]


/-- What was printed, in order. -/
def printed (l : List Ev) : List Nat :=
  (l.filterMap fun e => match e with | .print m => some m | _ => none).reverse

theorem status_last {s : S} (I : Inv s) (h : s.over = false) : ∀ x, Ev.status x ∉ s.log := I.over h

theorem inv_step {o : Op} {s s' : S} (I : Inv s) (h : step o s = some s') : Inv s' := by
  unfold step at h
  split at h
  · cases h
  rename_i ho
  have ho : s.over = false := by simpa using ho
  have hns := I.over ho
  cases o with
  | start t j =>
    dsimp only at h
    split at h
    · cases h
    · rename_i hc
      have hc1 : Ev.began t j ∉ s.log := fun h => hc (.inl h)
      have hc2 : ¬ (t = 0 ∧ ¬ ∃ k, (0, k) ∈ s.live) := fun h => hc (.inr h)
      cases h
      constructor
      · intro t' c; simpa [Returned] using I.flag t' c
      · simpa [Returned] using I.quit
      · simpa [Returned] using I.run
      · intro _ x; simpa using hns x
      · intro k hk
        simp only [List.mem_cons, Ev.began.injEq, reduceCtorEq, false_or] at hk ⊢
        rcases hk with ⟨rfl, rfl⟩ | hk
        · exact .inl (.inl rfl)
        · exact (I.live k hk).imp .inr id
      · intro p hp
        rcases List.mem_cons.1 hp with rfl | hp
        · simp
        · exact List.mem_cons_of_mem _ (I.began p hp)
      · exact List.nodup_cons.2 ⟨fun h => hc1 (I.began _ h), I.nodup⟩
      · intro a b c hl _ k hk
        cases a with
        | nil => cases hl
        | cons x a =>
          obtain ⟨rfl, h4⟩ := List.cons.inj hl
          simp only [List.mem_cons, reduceCtorEq, false_or] at hk
          exact I.since a b c h4 ho k hk
      · intro x hx
        simp only [List.mem_cons, reduceCtorEq, false_or] at hx
        exact absurd hx (hns x)
      · intro h1 h2; exact List.mem_cons_of_mem _ (I.here (by simpa [Returned] using h1) h2)
      · simpa using I.written
  | print m =>
    cases h
    constructor
    · intro t' c; simpa [Returned] using I.flag t' c
    · simpa [Returned] using I.quit
    · simpa [Returned] using I.run
    · intro _ x; simpa using hns x
    · intro k hk; simp at hk ⊢; exact I.live k hk
    · intro p hp; exact List.mem_cons_of_mem _ (I.began p hp)
    · exact I.nodup
    · intro a b c hl _ k hk
      cases a with
      | nil => cases hl
      | cons x a =>
        obtain ⟨rfl, h4⟩ := List.cons.inj hl
        simp only [List.mem_cons, reduceCtorEq, false_or] at hk
        exact I.since a b c h4 ho k hk
    · intro x hx
      simp only [List.mem_cons, reduceCtorEq, false_or] at hx
      exact absurd hx (hns x)
    · intro h1 h2; exact I.here (by simpa [Returned] using h1) h2
    · have := I.written
      simp [← this]
  | flush =>
    cases h
    exact ⟨I.flag, I.quit, I.run, I.over, I.live, I.began, I.nodup, I.since, I.status, I.here,
      by simpa using I.written⟩
  | ret c =>
    dsimp only at h
    split at h
    · rename_i hm
      cases h
      obtain ⟨hr, hq⟩ := I.run hm
      constructor
      · intro t' c'
        simp only [Returned, List.mem_cons, Ev.returned.injEq]
        by_cases ht : t' = 0
        · subst ht
          simp only [if_true, Option.some.injEq, true_and]
          exact ⟨fun h => .inl h.symm, fun h => h.elim Eq.symm (fun h => absurd h (hr c'))⟩
        · simp only [ht, if_false, false_and, iff_false]
          intro h; exact ht ((I.flag t' c').1 h).1
      · intro _; simpa using hq
      · intro h; cases h
      · intro _ x; simpa using hns x
      · intro k hk; simp at hk ⊢; exact I.live k hk
      · intro p hp; exact List.mem_cons_of_mem _ (I.began p hp)
      · exact I.nodup
      · intro a b c' hl _ k hk
        cases a with
        | nil => cases hk
        | cons x a =>
          obtain ⟨rfl, h4⟩ := List.cons.inj hl
          exact absurd (by unfold Returned; rw [h4]; simp) (hr c')
      · intro x hx
        simp only [List.mem_cons, reduceCtorEq, false_or] at hx
        exact absurd hx (hns x)
      · intro _ _; exact I.here (.inl hm) ho
      · simpa using I.written
    · cases h
  | quit =>
    dsimp only at h
    split at h
    · rename_i hm
      cases h
      obtain ⟨hr, hq⟩ := I.run hm
      constructor
      · intro t' c'; simpa [Returned] using I.flag t' c'
      · rintro ⟨c, h⟩; simp [Returned] at h; exact absurd h (hr c)
      · intro h; cases h
      · intro _ x; simpa using hns x
      · intro k hk; simp at hk ⊢; exact I.live k hk
      · intro p hp; exact List.mem_cons_of_mem _ (I.began p hp)
      · exact I.nodup
      · intro a b c' hl _ k hk
        cases a with
        | nil => cases hk
        | cons x a =>
          obtain ⟨rfl, h4⟩ := List.cons.inj hl
          exact absurd (by unfold Returned; rw [h4]; simp) (hr c')
      · intro x hx
        simp only [List.mem_cons, reduceCtorEq, false_or] at hx
        exact absurd hx (hns x)
      · intro _ _; exact I.here (.inl hm) ho
      · simpa using I.written
    · cases h
  | finish t j =>
    dsimp only at h
    split at h
    · rename_i hc
      cases h
      have hlive : ∀ k, Ev.began 0 k ∈ s.log → (0, k) ∈ s.live.erase (t, j) ∨ Ev.ended 0 k ∈ Ev.ended t j :: s.log := by
        intro k hk
        rcases I.live k hk with h | h
        · by_cases he : (0, k) = (t, j)
          · cases he; exact .inr List.mem_cons_self
          · exact .inl ((List.mem_erase_of_ne he).2 h)
        · exact .inr (List.mem_cons_of_mem _ h)
      unfold cleanup
      dsimp only
      split
      · rename_i c hf
        obtain ⟨rfl, hr⟩ := (I.flag t c).1 hf
        constructor
        · intro t' c'; simpa [Returned] using I.flag t' c'
        · simpa [Returned] using I.quit
        · simpa [Returned] using I.run
        · intro h; cases h
        · intro k hk; simp at hk; exact (hlive k hk).imp id (List.mem_cons_of_mem _)
        · intro p hp; simp; exact I.began p (List.mem_of_mem_erase hp)
        · exact I.nodup.erase _
        · intro a b c _ h; cases h
        · intro x hx
          simp only [List.mem_cons, Ev.status.injEq, reduceCtorEq, false_or] at hx
          rcases hx with rfl | hx
          · exact .inl ⟨by simpa [Returned] using hr, j, s.log, rfl⟩
          · exact absurd hx (hns x)
        · intro _ h; cases h
        · simpa using I.written
      · rename_i hf
        constructor
        · intro t' c'; simpa [Returned] using I.flag t' c'
        · simpa [Returned] using I.quit
        · simpa [Returned] using I.run
        · intro _ x; simpa using hns x
        · intro k hk; simp only [List.mem_cons, reduceCtorEq, false_or] at hk; exact hlive k hk
        · intro p hp; exact List.mem_cons_of_mem _ (I.began p (List.mem_of_mem_erase hp))
        · exact I.nodup.erase _
        · intro a b c hl _ k hk
          cases a with
          | nil => cases hl
          | cons x a =>
            have h2 := List.cons.inj hl
            obtain ⟨h3, h4⟩ := h2
            subst h3
            rcases List.mem_cons.1 hk with hk | hk
            · cases hk
              have : s.flag 0 = some c := (I.flag 0 c).2 ⟨rfl, by unfold Returned; rw [h4]; simp⟩
              rw [hf] at this; cases this
            · exact I.since a b c h4 ho k hk
        · intro x hx
          simp only [List.mem_cons, reduceCtorEq, false_or] at hx
          exact absurd hx (hns x)
        · intro hm _
          have hm2 : s.main = .running ∨ ∃ c, Returned s c := by simpa [Returned] using hm
          refine (List.mem_erase_of_ne ?_).2 (I.here hm2 ho)
          intro he
          cases he
          rcases hm2 with hm | ⟨c, hr⟩
          · have := hc.2 rfl; rw [hm] at this; cases this
          · rw [(I.flag 0 c).2 ⟨rfl, hr⟩] at hf; cases hf
        · simpa using I.written
    · cases h
  | leave =>
    dsimp only at h
    split at h
    · cases h
    · rename_i hc
      cases h
      have hnr : ∀ c, ¬ Returned s c := by
        intro c hr; exact hc ⟨1, I.here (.inr ⟨c, hr⟩) ho⟩
      constructor
      · intro t' c'; simpa [Returned] using I.flag t' c'
      · simpa [Returned] using I.quit
      · simpa [Returned] using I.run
      · intro h; cases h
      · intro k hk; simp at hk ⊢; exact I.live k hk
      · intro p hp; exact List.mem_cons_of_mem _ (I.began p hp)
      · exact I.nodup
      · intro a b c _ h; cases h
      · intro x hx
        simp only [List.mem_cons, Ev.status.injEq] at hx
        rcases hx with rfl | hx
        · refine .inr (.inl ⟨rfl, by simpa [Returned] using hnr, ?_⟩)
          intro k hk
          simp only [List.mem_cons, reduceCtorEq, false_or] at hk ⊢
          exact (I.live k hk).elim (fun h => absurd ⟨k, h⟩ hc) id
        · exact absurd hx (hns x)
      · intro _ h; cases h
      · simpa using I.written
  | broken =>
    cases h
    constructor
    · intro t' c'; simpa [Returned] using I.flag t' c'
    · simpa [Returned] using I.quit
    · simpa [Returned] using I.run
    · intro h; cases h
    · intro k hk; simp at hk ⊢; exact I.live k hk
    · intro p hp; simp; exact I.began p hp
    · exact I.nodup
    · intro a b c _ h; cases h
    · intro x hx
      simp only [List.mem_cons, Ev.status.injEq, reduceCtorEq, false_or] at hx
      rcases hx with rfl | hx
      · exact .inr (.inr ⟨rfl, by simp⟩)
      · exact absurd hx (hns x)
    · intro _ h; cases h
    · simpa using I.written

theorem inv_reach {s : S} (r : Reach s) : Inv s := by
  induction r with
  | init => exact inv_init
  | step o _ h ih => exact inv_step ih h

/-- **C82**, the status: however the coroutines of all threads begin and end, the process ends with the code
that the main function returned, at the moment when the first coroutine of its thread ends after that; or
with -1 after all coroutines of the main thread have ended and the main function has not returned (it called
`neco_exit` or was canceled); or with 160 because standard output or error was a broken pipe. -/
theorem C82_status {s : S} (r : Reach s) {x : Int} (h : Ev.status x ∈ s.log) :
    (Returned s x ∧ ∃ k l, s.log = .status x :: .ended 0 k :: l) ∨
    (x = -1 ∧ (∀ c, ¬ Returned s c) ∧ AllEnded s) ∨ (x = 160 ∧ Ev.broken ∈ s.log) :=
  (inv_reach r).status x h

/-- **C82**, at once: when the main function has returned, no coroutine of its thread ends before the process
does. -/
theorem C82_once {s : S} (r : Reach s) {a b : List Ev} {c : Int} (h : s.log = a ++ .returned c :: b)
    (ho : ∀ x, Ev.status x ∉ s.log) : ∀ k, Ev.ended 0 k ∉ a := by
  refine (inv_reach r).since a b c h ?_
  cases hv : s.over
  · rfl
  · exfalso
    clear h
    induction r with
    | init => cases hv
    | @step s s' o r h ih =>
      unfold step at h
      split at h
      · cases h
      rename_i hx
      have hx : s.over = false := by simpa using hx
      cases o <;> dsimp only at h
      case start => split at h <;> cases h; rw [hx] at hv; cases hv
      case print => cases h; rw [hx] at hv; cases hv
      case flush => cases h; rw [hx] at hv; cases hv
      case ret => split at h <;> cases h; rw [hx] at hv; cases hv
      case quit => split at h <;> cases h; rw [hx] at hv; cases hv
      case finish =>
        split at h <;> cases h
        unfold cleanup at hv ho
        dsimp only at hv ho
        split at hv
        · rename_i c' hf; rw [hf] at ho; exact ho c' (by simp)
        · rw [hx] at hv; cases hv
      case leave => split at h <;> cases h; exact ho (-1) (by simp)
      case broken => cases h; exact ho 160 (by simp)

/-- **C82**, it can end: when the main function has returned `c` and the process has not ended, the main
coroutine is still there, and its end ends the process with `c`. -/
theorem C82_ends {s : S} (r : Reach s) {c : Int} (h : Returned s c) (ho : s.over = false) :
    ∃ s', step (.finish 0 1) s = some s' ∧ Ev.status c ∈ s'.log := by
  have I := inv_reach r
  have hl := I.here (.inr ⟨c, h⟩) ho
  have hm : s.main = .leaving := by
    cases hm : s.main
    · exact absurd h ((I.run hm).1 c)
    · rfl
  have hf := (I.flag 0 c).2 ⟨rfl, h⟩
  refine ⟨cleanup s 0 1, ?_, ?_⟩
  · unfold step; rw [ho]; simp [hl, hm]
  · unfold cleanup; dsimp only; rw [hf]; simp

/-- **C82**, output: nothing is written that was not printed, and in the order in which it was. -/
theorem C82_output_partial {s : S} (r : Reach s) : ∃ rest, s.out ++ rest = printed s.log :=
  ⟨s.buf, (inv_reach r).written⟩

theorem run_reach : ∀ {os : List Op} {s s' : S}, Reach s → run os s = some s' → Reach s'
  | [], _, _, r, h => by cases h; exact r
  | o :: os, s, s', r, h => by
    unfold run at h
    cases h1 : step o s with
    | none => rw [h1] at h; cases h
    | some s1 => rw [h1] at h; exact run_reach (r.step o h1) h

/-- **C82**, what is not so: a program whose main function prints and returns 0 ends with status 0, and what
it printed need not have been written: `_Exit` leaves it in the buffer of stdio (it is written if stdio
writes it earlier, as it does line by line to a terminal). -/
theorem C82_output_not_general : ∃ s, Reach s ∧ Ev.status 0 ∈ s.log ∧ printed s.log = [7] ∧ s.out = [] :=
  ⟨_, run_reach (os := [.print 7, .ret 0, .finish 0 1]) .init rfl, by decide, rfl, rfl⟩

/-- **C82**, and: a main function that ends with `neco_exit` does not end the program; it goes on until the
other coroutines have ended, and then the status is -1, as if `neco_start` had failed. -/
theorem C82_exit_not_general : ∃ s, Reach s ∧ Ev.quit ∈ s.log ∧ Ev.status (-1) ∈ s.log ∧
    s.log = [.status (-1), .ended 0 2, .print 3, .ended 0 1, .quit, .began 0 2, .began 0 1] :=
  ⟨_, run_reach (os := [.start 0 2, .quit, .finish 0 1, .print 3, .finish 0 2, .leave]) .init rfl,
    by decide, by decide, rfl⟩

/-- A case with two threads: ends in the other thread do not matter, the first end in the main thread does,
also of another coroutine. -/
example : ∃ s, Reach s ∧
    s.log = [.status 5, .ended 0 2, .ended 1 1, .returned 5, .began 1 1, .began 0 2, .began 0 1] :=
  ⟨_, run_reach (os := [.start 0 2, .start 1 1, .ret 5, .finish 1 1, .finish 0 2]) .init rfl, rfl⟩

end Neco.Main
