import Verif.Proof.Exit
/-!
# C81: the end of a coroutine, with cleanup handlers that call the API

`Reach s` is every execution: every function and every handler, which suspend, push, pop, call `neco_exit`
and are canceled in any order.  `s.log` is what happened.
-/
namespace Neco.Exit

theorem count_le_one {l : List Ev} {e : Ev} (h : ∀ a b, l = a ++ e :: b → e ∉ a) : l.count e ≤ 1 := by
  refine Nat.not_lt.1 fun hc => ?_
  have hm : e ∈ l := List.count_pos_iff.1 (by omega)
  obtain ⟨a, b, rfl⟩ := List.append_of_mem hm
  have ha := List.count_eq_zero.2 (h a b rfl)
  rw [List.count_append, ha, List.count_cons_self] at hc
  have hb : e ∈ b := List.count_pos_iff.1 (by omega)
  obtain ⟨b1, b2, rfl⟩ := List.append_of_mem hb
  exact h (a ++ e :: b1) b2 (by simp) (by simp)

/-- **C81**, at most once: in every execution, a handler is called at most once and returns at most once,
and only handlers that were established are called. -/
theorem C81_once {s : S} (r : Reach s) (h : Nat) :
    s.log.count (.start h) ≤ 1 ∧ s.log.count (.finish h) ≤ 1 ∧
    (Ev.start h ∈ s.log → Established h s.log) ∧ (Ev.finish h ∈ s.log → Ev.start h ∈ s.log) := by
  have E := (ok_reach r).each
  refine ⟨count_le_one fun a b hab => (E _ _ _ hab).2.1, count_le_one fun a b hab => (E _ _ _ hab).2, ?_, ?_⟩
  · intro hm
    obtain ⟨a, b, hab⟩ := List.append_of_mem hm
    obtain ⟨_, _, f, hf⟩ := E _ _ _ hab
    exact ⟨f, hab ▸ List.mem_append_left _ hf⟩
  · intro hm
    obtain ⟨a, b, hab⟩ := List.append_of_mem hm
    exact hab ▸ List.mem_append_left _ (E _ _ _ hab).1

/-- **C81**, the order: in every execution, when a handler comes off, it had not come off before, and all
handlers established after it have come off already. -/
theorem C81_order {s : S} (r : Reach s) {a b : List Ev} {x : Ev} {h : Nat}
    (hs : s.log = a ++ x :: b) (hx : Takes h x) :
    ¬ Taken h a ∧ (∃ f r, Ev.pushed f h r ∈ a) ∧
    ∀ a1 f r a2, a = a1 ++ .pushed f h r :: a2 → ∀ f' h' r', Ev.pushed f' h' r' ∈ a2 → Taken h' a := by
  have E := (ok_reach r).each
  have key : (∃ f r, Ev.pushed f h r ∈ a) ∧ ¬ Taken h a ∧
      ∀ f' h' r, Ev.pushed f' h' r ∈ a → h < h' → Taken h' a := by
    rcases hx with ⟨f, e, rfl⟩ | rfl
    · obtain ⟨⟨r, h1⟩, h2, h3⟩ := E _ _ _ hs
      exact ⟨⟨f, r, h1⟩, h2, h3⟩
    · obtain ⟨h1, h2, h3, _⟩ := E _ _ _ hs
      exact ⟨h1, h2, h3⟩
  refine ⟨key.2.1, key.1, ?_⟩
  rintro a1 f r a2 rfl f' h' r' hm
  obtain ⟨c1, c2, rfl⟩ := List.append_of_mem hm
  have hp := E (a1 ++ .pushed f h r :: c1) (.pushed f' h' r') (c2 ++ x :: b) (by simp [hs])
  exact key.2.2 f' h' r' (by simp) (hp.2 f h r (by simp))

/-- **C81**, push and pop belong together: what comes off in a pop is a handler that the same activation of
the same function pushed, even if handlers or other code in between pushed, popped or suspended. -/
theorem C81_own {s : S} (r : Reach s) {a b : List Ev} {f h : Nat} {e : Bool}
    (hs : s.log = a ++ .popped f h e :: b) : ∃ r, Ev.pushed f h r ∈ a :=
  ((ok_reach r).each _ _ _ hs).1

/-- **C81**, all of them: by the time the coroutine is gone (its id unknown, those who wait for it woken),
every handler ever pushed has come off, and each with a routine was called unless it was popped without
being executed. -/
theorem C81_all {s : S} (r : Reach s) {a b : List Ev} (hs : s.log = a ++ .gone :: b) :
    (∀ f h r, Ev.pushed f h r ∈ a → Taken h a) ∧
    ∀ h, Established h a → Ev.start h ∈ a ∨ ∃ f, Ev.popped f h false ∈ a := by
  obtain ⟨h1, h2, _⟩ := (ok_reach r).each _ _ _ hs
  exact ⟨h1, fun h ⟨f, hf⟩ => h2 f h hf⟩

/-- **C81**, no way back: after the coroutine was terminated (`neco_exit`, or a cancel), the only code that
runs in it is that of handlers called since. -/
theorem C81_final {s : S} (r : Reach s) {a1 a2 b : List Ev} {g f : Nat} {w : Why}
    (hs : s.log = a1 ++ .exit g w :: a2 ++ .act f :: b) : Ev.start f ∈ a2 :=
  (ok_reach r).each (a1 ++ .exit g w :: a2) (.act f) b (by simp [hs]) _ _ _ _ rfl

/-- **C81**: a coroutine is terminated because it called `neco_exit` or because a cancel reached it. -/
theorem C81_why {s : S} (r : Reach s) {a b : List Ev} {f : Nat}
    (hs : s.log = a ++ .exit f .cancel :: b) : Ev.cancel ∈ a :=
  (ok_reach r).each _ _ _ hs rfl

/-- **C81**, the end: once it is gone, none of its code runs, no handler is called, no cancel reaches it and
nobody begins to wait for it; and whoever waited and had not given up is woken, once per wait, not before. -/
theorem C81_gone {s : S} (r : Reach s) :
    (∀ a b, s.log = a ++ .gone :: b →
      ∀ x ∈ b, (∀ f, x ≠ .act f) ∧ (∀ h, x ≠ .start h) ∧ x ≠ .cancel ∧ ∀ w, x ≠ .join w) ∧
    (∀ a w b, s.log = a ++ .woke w :: b → Ev.gone ∈ a) ∧
    (Ev.gone ∈ s.log → ∀ w, s.log.count (.join w) = s.log.count (.leave w) + s.log.count (.woke w)) := by
  have W := w_reach r
  refine ⟨?_, fun a w b h => (ok_reach r).each _ _ _ h, ?_⟩
  · intro a b hab x hx
    obtain ⟨b1, b2, rfl⟩ := List.append_of_mem hx
    have q := WI.each W (a ++ .gone :: b1) x b2 (by simp [hab])
    refine ⟨?_, ?_, ?_, ?_⟩
    · rintro f rfl; exact q (by simp)
    · rintro f rfl; exact q (by simp)
    · rintro rfl; exact q (by simp)
    · rintro f rfl; exact q (by simp)
  · intro hg w
    have hm : s.inMap = false := by
      rcases Bool.eq_false_or_eq_true s.inMap with h | h
      · exact absurd hg (WI.live W h).1
      · exact h
    have := WI.count W w
    rw [(WI.over W hm).1] at this
    simpa using this

/-- **C81**, to the end: a handler that was called has returned by the time the coroutine is gone, unless
the coroutine was terminated (again) while the handler ran. -/
theorem C81_finish_partial {s : S} (r : Reach s) {a1 a2 b : List Ev} {h : Nat}
    (hs : s.log = a1 ++ .start h :: a2 ++ .gone :: b) :
    Ev.finish h ∈ a2 ∨ ∃ f w, Ev.exit f w ∈ a2 :=
  ((ok_reach r).each (a1 ++ .start h :: a2) .gone b (by simp [hs])).2.2 _ _ _ rfl

/-- In particular: if no cancel ever reached the coroutine, and `neco_exit` was not called after the handler
was, the handler returned. -/
theorem C81_finish {s : S} (r : Reach s) {a1 a2 b : List Ev} {h : Nat}
    (hs : s.log = a1 ++ .start h :: a2 ++ .gone :: b) (hc : Ev.cancel ∉ s.log)
    (he : ∀ f, Ev.exit f .call ∉ a2) : Ev.finish h ∈ a2 := by
  rcases C81_finish_partial r hs with h' | ⟨f, w, h'⟩
  · exact h'
  · cases w
    · exact absurd h' (he f)
    · obtain ⟨c1, c2, rfl⟩ := List.append_of_mem h'
      have := C81_why r (a := a1 ++ .start h :: c1) (b := c2 ++ .gone :: b) (f := f) (by simp [hs])
      exact absurd (by rw [hs]; simp [List.mem_append, List.mem_cons] at this ⊢; rcases this with h | h <;> simp [h]) hc

theorem run_reach : ∀ {os : List Op} {s s' : S}, Reach s → run os s = some s' → Reach s'
  | [], _, _, r, h => by cases h; exact r
  | o :: os, s, s', r, h => by
    unfold run at h
    cases h1 : step o s with
    | none => rw [h1] at h; cases h
    | some s1 => rw [h1] at h; exact run_reach (r.step o h1) h

/-- One cancel: the coroutine pushes a handler and waits; the cancel terminates it; the handler waits too,
and this ends the handler, although there is no second cancel and nothing exits. -/
def stray : List Op := [.setType true, .push true, .call, .cancel, .resume, .call, .resume]

/-- **C81**, what is not so: a handler that runs because of a cancel and that suspends does not continue
after it.  The flag by which `coyield` knows of the cancel stays set (neco.c 3654-3660), so the same cancel
terminates the coroutine a second time, inside its handler. -/
theorem C81_finish_not_general : ∃ s, Reach s ∧ s.log.count .cancel = 1 ∧ (∀ f, Ev.exit f .call ∉ s.log) ∧
    Ev.start 1 ∈ s.log ∧ Ev.dead ∈ s.log ∧ Ev.finish 1 ∉ s.log := by
  cases h : run stray init with
  | none => exact absurd h (by decide +kernel)
  | some s =>
    have hs : s = (run stray init).get (by decide +kernel) := by simp [h]
    refine ⟨s, run_reach .init h, ?_⟩
    subst hs
    refine ⟨by decide +kernel, ?_, by decide +kernel, by decide +kernel, by decide +kernel⟩
    intro f hf
    have : ((run stray init).get (by decide +kernel)).log.all (fun e => match e with | .exit _ .call => false | _ => true) = true := by
      decide +kernel
    have := List.all_eq_true.1 this _ hf
    cases this

/-- User code runs, or waits, in an activation. -/
def Top (s : S) : Prop := s.phase = .run ∨ s.phase = .wait → ∃ f n t, s.frames = .user f n :: t

theorem top_ending (s : S) : Top (ending s) := by
  unfold ending Top; dsimp only; split <;> simp

theorem top_unwind {ch : List Rec} : ∀ (s : S), Top (unwind ch s) := by
  induction ch with
  | nil => intro s; exact top_ending _
  | cons r ch ih =>
    intro s; unfold unwind; split
    · intro _; exact ⟨_, _, _, rfl⟩
    · exact ih _

theorem top_step {o : Op} {s s' : S} (I : Top s) (h : step o s = some s') : Top s' := by
  obtain ⟨frames, chain, next, canceled, async, inMap, waiters, phase, log⟩ := s
  unfold Top at I
  dsimp only at I
  unfold step at h
  dsimp only at h
  split at h
  · cases h; intro _; exact ⟨_, _, _, rfl⟩
  · split at h
    · cases h
    · split at h <;> cases h <;> intro _ <;> exact ⟨_, _, _, rfl⟩
  · cases h; exact top_unwind _
  · split at h
    · cases h; exact top_ending _
    · cases h; exact top_unwind _
    · cases h; intro _; exact ⟨_, _, _, rfl⟩
  · cases h; intro _; exact ⟨_, _, _, rfl⟩
  · split at h
    · split at h
      · cases h; exact top_unwind _
      · cases h; intro _; exact ⟨_, _, _, rfl⟩
    · cases h
  · cases h; intro _; exact ⟨_, _, _, rfl⟩
  · split at h
    · cases h; exact top_unwind _
    · cases h; intro _; exact I (.inr rfl)
  · split at h
    · cases h; exact top_unwind _
    · split at h <;> cases h <;> intro h <;> simp at h
  · split at h
    · cases h; exact I
    · cases h
  · split at h
    · cases h; exact I
    · cases h
  · split at h
    · cases h; exact I
    · cases h
  · cases h

theorem top_reach {s : S} (r : Reach s) : Top s := by
  induction r with
  | init => intro _; exact ⟨_, _, _, rfl⟩
  | step o _ h ih => exact top_step ih h

theorem unwind_end {ch : List Rec} : ∀ (s : S) (t : List Frame), s.frames = .exit :: t →
    ∃ s', run (List.replicate (ch.countP Rec.routine) .ret) (unwind ch s) = some s' ∧ Ev.gone ∈ s'.log := by
  induction ch with
  | nil =>
    intro s t _
    refine ⟨_, rfl, ?_⟩
    simp only [unwind, ending]
    split <;> simp
  | cons r ch ih =>
    intro s t ht
    unfold unwind
    split
    · rename_i hr
      rw [List.countP_cons_of_pos hr, List.replicate_succ]
      simp only [run, step, ht, Option.bind_some]
      exact ih _ t rfl
    · rename_i hr
      rw [List.countP_cons_of_neg hr]
      exact ih _ t ht

/-- **C81**, the end is reached: from any state of any execution in which its code runs, if it calls
`neco_exit` and each handler that is then called just returns, the coroutine is gone after as many returns
as there are handlers with a routine. -/
theorem C81_end {s : S} (r : Reach s) (hp : s.phase = .run) :
    ∃ s', run (.exit :: List.replicate (s.chain.countP Rec.routine) .ret) s = some s' ∧ Ev.gone ∈ s'.log := by
  obtain ⟨f, n, t, ht⟩ := top_reach r (.inl hp)
  obtain ⟨frames, chain, next, canceled, async, inMap, waiters, phase, log⟩ := s
  dsimp only at hp ht
  subst hp ht
  simp only [run, step, Option.bind_some, coexit]
  exact unwind_end _ _ rfl

/-- A case that meets the hypotheses: three handlers, the second without a routine, are established; the
third suspends, pushes and pops one of its own and calls `neco_exit`; somebody waits for the end. -/
def busy : List Op :=
  [.push true, .push false, .push true, .call, .join 7, .join 8, .leave 8, .resume, .exit,
   .call, .resume, .push true, .pop true, .ret, .push true, .exit, .ret, .ret, .resume, .resume]

example : ∃ s, run busy init = some s ∧ Reach s ∧ s.log.count (.start 3) = 1 ∧ Ev.finish 3 ∉ s.log ∧
    s.log.filter (fun e => match e with | .start _ | .gone | .woke _ | .dead => true | _ => false) =
      [.start 3, .start 4, .start 5, .start 1, .gone, .woke 7, .dead] := by
  cases h : run busy init with
  | none => exact absurd h (by decide +kernel)
  | some s =>
    have hs : s = (run busy init).get (by decide +kernel) := by simp [h]
    refine ⟨s, rfl, run_reach .init h, ?_⟩
    subst hs
    refine ⟨by decide +kernel, by decide +kernel, by decide +kernel⟩

/-- And one for `C81_end` and for the hypotheses of `C81_finish`. -/
example : ∃ s, run [.push true, .push true] init = some s ∧ Reach s ∧ s.phase = .run ∧
    s.chain.countP Rec.routine = 2 := by
  cases h : run [.push true, .push true] init with
  | none => exact absurd h (by decide +kernel)
  | some s =>
    have hs : s = (run [.push true, .push true] init).get (by decide +kernel) := by simp [h]
    refine ⟨s, rfl, run_reach .init h, ?_⟩
    subst hs
    exact ⟨by decide +kernel, by decide +kernel⟩

end Neco.Exit
