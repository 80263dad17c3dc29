import Verif.Proof.RtLife2
/-!
# Inverting a call step
-/
namespace Neco.Rt
open Neco.Err

/-- the state in which `doCall` runs -/
def callSt (s : S) (i : Nat) (c : Call) : S := upd (note s (.call i c)) i (fun k => { k with call := c })

theorem callSt_field {α : Type} (g : Co → α) (h : ∀ (k : Co) (c : Call), g { k with call := c } = g k) (s : S) (i : Nat) (c : Call) (j : Nat) :
    g ((callSt s i c).co j) = g (s.co j) := by
  unfold callSt; rw [upd_co]; split
  · rename_i e; subst e; exact h _ _
  · rfl

theorem step_guard {s s' : S} {a : Act} (hs : step s a = some s') : ¬ (s.dead = true ∨ s.fault = true ∨ s.main = .done) := by
  unfold step at hs
  split at hs
  · cases hs
  · assumption

theorem step_call {s s' : S} {c : Call} (hs : step s (.call c) = some s') :
    ∃ i, s.sco.cur = some i ∧ (s.co i).pc = .user ∧ c ≠ .none ∧ s' = doCall (callSt s i c) i c := by
  unfold step at hs
  split at hs
  · cases hs
  simp only at hs
  split at hs
  · cases hs
  · rename_i i hc
    split at hs <;> cases hs
    rename_i h
    exact ⟨i, hc, h.1, h.2, rfl⟩

theorem step_call_of {s s' : S} {c : Call} {i : Nat} (hs : step s (.call c) = some s') (hc : s.sco.cur = some i) :
    (s.co i).pc = .user ∧ c ≠ .none ∧ s' = doCall (callSt s i c) i c := by
  obtain ⟨j, h1, h2⟩ := step_call hs
  rw [hc] at h1; cases h1; exact h2

/-- what `step` does for a call -/
theorem step_call_eq {s : S} {c : Call} {i : Nat} (hg : ¬ (s.dead = true ∨ s.fault = true ∨ s.main = .done)) (hc : s.sco.cur = some i) (hu : (s.co i).pc = .user) (hn : c ≠ .none) :
    step s (.call c) = some (doCall (callSt s i c) i c) := by
  unfold step; rw [if_neg hg]; simp only [hc]; rw [if_pos ⟨hu, hn⟩]; rfl

theorem callKinds_call (c : Call) : Kind.call ∉ callKinds c := by cases c <;> simp [callKinds]

theorem kind_isCallOf {e : Ev} {i : Nat} (h : e.kind ≠ .call) : isCallOf i e = false := by
  cases e <;> first | rfl | simp [Ev.kind] at h

theorem call_log {s s' : S} {c : Call} {i : Nat} (hs : step s (.call c) = some s') (hc : s.sco.cur = some i) :
    ∃ fs, s'.log = fs ++ .call i c :: s.log ∧ ∀ e ∈ fs, e.kind ∈ callKinds c := by
  obtain ⟨_, _, rfl⟩ := step_call_of hs hc
  obtain ⟨fs, h1, h2⟩ := doCall_adds (callSt s i c) i c
  exact ⟨fs, h1, h2⟩

theorem since_app {i : Nat} {c : Call} {a b : List Ev} (h : ∀ e ∈ a, isCallOf i e = false) : since i (a ++ .call i c :: b) = a := by
  unfold since; rw [List.takeWhile_append_of_pos, List.takeWhile_cons_of_neg]
  · simp
  · simp [isCallOf]
  · intro e he; simp [h e he]

/-- relates the step that made a call to the history at its return -/
theorem since_step {s s0 s1 : S} {i : Nat} {c : Call} {es : List Ev} (hs : step s0 (.call c) = some s1) (hc : s0.sco.cur = some i)
    (hl : s.log = es ++ s1.log) (hn : ∀ e ∈ es, isCallOf i e = false) :
    ∃ fs, s1.log = fs ++ .call i c :: s0.log ∧ since i s.log = es ++ fs ∧ s.log = since i s.log ++ .call i c :: s0.log := by
  obtain ⟨fs, h1, h2⟩ := call_log hs hc
  have : since i s.log = es ++ fs := by
    rw [hl, h1, ← List.append_assoc]
    apply since_app
    intro e he
    rcases List.mem_append.mp he with he | he
    · exact hn e he
    · apply kind_isCallOf; intro e'; have := h2 e he; rw [e'] at this; exact callKinds_call c this
  refine ⟨fs, h1, this, ?_⟩
  rw [this]; rw [hl, h1]; simp

/-- the call and what happened since, for the coroutine about to return -/
theorem returns_call {ok} {s : S} {i : Nat} {c : Call} {v : Int} {d : Msg} (r : Reach ok s) (h : Returns s i c v d) : ∃ b, s.log = since i s.log ++ .call i c :: b := by
  obtain ⟨h1, h2, h3, h4, h5⟩ := h.elim
  have hc := returns_codes r h
  have hn : (s.co i).call ≠ .none := by rw [h3]; intro e; rw [e] at hc; exact hc
  obtain ⟨b, hb⟩ := call_since r hn
  rw [h3] at hb; exact ⟨b, hb⟩

/-- the split at the last call is unique -/
theorem call_unique {i : Nat} {c c' : Call} {l b b' : List Ev} (h : l = since i l ++ .call i c :: b) (h' : l = since i l ++ .call i c' :: b') : c = c' ∧ b = b' := by
  have := List.append_cancel_left (h.symm.trans h')
  simp at this; exact this

/-- a call that does not wait: the state in which it was made -/
theorem imm_call {ok} {s : S} {i : Nat} {c : Call} {v : Int} {d : Msg} {b : List Ev} (r : Reach ok s) (h : Returns s i c v d) (hi : imm c = true)
    (hb : s.log = since i s.log ++ .call i c :: b) :
    ∃ s0, Reach ok s0 ∧ s0.log = b ∧ s0.sco.cur = some i ∧ (s0.co i).pc = .user ∧ (s0.dead = false ∧ s0.fault = false) ∧
      ((doCall (callSt s0 i c) i c).co i).pc = .ret v ∧ ((doCall (callSt s0 i c) i c).co i).rdat = d ∧
      ∃ es fs, s.log = es ++ (doCall (callSt s0 i c) i c).log ∧ since i s.log = es ++ fs ∧ (doCall (callSt s0 i c) i c).log = fs ++ .call i c :: b := by
  obtain ⟨s0, s1, es, r0, hc, hs, hp, hr, hl, hn⟩ := imm_returns r h hi
  obtain ⟨fs, h1, h2, h3⟩ := since_step hs hc hl hn
  have hbb := (call_unique hb h3).2
  subst hbb
  have hg := step_guard hs
  obtain ⟨hu, _, rfl⟩ := step_call_of hs hc
  exact ⟨s0, r0, rfl, hc, hu, by simpa using And.intro (fun e => hg (.inl e)) (fun e => hg (.inr (.inl e))), hp, hr, es, fs, hl, h2, h1⟩

theorem returns_ok {s : S} {i : Nat} {c : Call} {v : Int} {d : Msg} (f : Fresh i s) (h : Returns s i c v d) :
    (v = CANCELED → ∃ k, .cancel k i ∈ s.log) ∧ (v = TIMEDOUT → ∃ dl, callDl c = some dl ∧ dl < s.clock) ∧ CallOk i c (s.co i).gen v d (sn i s) s.clock := by
  obtain ⟨h1, h2, h3, h4, h5⟩ := h.elim
  obtain ⟨a, b, e⟩ := f.coE.rt v (by rw [h2]; rfl)
  rw [h3] at b e; rw [h4] at e
  exact ⟨fun hv => (a hv).imp (fun _ hk => mem_lg hk), b, e⟩

/-- only a call of `i` adds a call of `i` to the history -/
theorem call_only {s s' : S} {a : Act} {i : Nat} {c : Call} (hs : step s a = some s') (ha : ∀ c, a = .call c → s.sco.cur ≠ some i) (hm : .call i c ∈ s'.log) : .call i c ∈ s.log := by
  cases a with
  | call c' =>
    obtain ⟨j, hj, _, _, _⟩ := step_call hs
    obtain ⟨fs, e1, e2⟩ := call_log hs hj
    rw [e1] at hm
    rcases List.mem_append.mp hm with h | h
    · exact absurd (e2 _ h) (callKinds_call c')
    · rcases List.mem_cons.mp h with h | h
      · cases h; exact absurd hj (ha _ rfl)
      · exact h
  | _ =>
    obtain ⟨es, e1, e2⟩ := step_adds hs
    rw [e1] at hm
    rcases List.mem_append.mp hm with h | h
    · have := e2 _ h
      unfold stepKinds at this
      try dsimp only at this
      try split at this
      all_goals first
        | exact absurd this (pcKinds_call _)
        | exact absurd this (mainKinds_call _)
        | simp [Ev.kind] at this
    · exact h

/-- in an execution in which no call is made with a wake-up left over, every call is such a call -/
theorem clean_fresh {s : S} (r : Reach Clean s) {i : Nat} {c : Call} (hm : .call i c ∈ s.log) : Fresh i s := by
  induction r with
  | init a e => simp [init] at hm
  | @step s s' r a hok hs ih =>
    by_cases hj : ∃ c, a = .call c ∧ s.sco.cur = some i
    · obtain ⟨c', rfl, hj⟩ := hj
      obtain ⟨c1, c2, c3, c4, _⟩ := hok c' i rfl hj
      exact .call (r.mono (fun _ _ _ => trivial)) hj ⟨c1, c2, c3, c4, fun hc => ((reach_coE r i).cc hc).imp fun _ hk => mem_lg hk⟩ hs
    · exact .step (ih (call_only hs (fun c e hc => hj ⟨c, e, hc⟩) hm)) (fun c e hc => hj ⟨c, e, hc⟩) hs

theorem Returns.called {ok} {s : S} (r : Reach ok s) {i : Nat} {c : Call} {v : Int} {d : Msg} (h : Returns s i c v d) : .call i c ∈ s.log := by
  obtain ⟨b, e⟩ := returns_call r h
  rw [e]; simp

theorem pending_called {i : Nat} {c : Call} {l : List Ev} (h : pending i l = some c) : .call i c ∈ l := by
  induction l with
  | nil => simp [pending] at h
  | cons e l ih =>
    cases e <;> simp only [pending] at h
    case call j c' =>
      split at h
      · rename_i e; subst e; cases h; simp
      · exact List.mem_cons_of_mem _ (ih h)
    case ret j _ _ _ =>
      split at h
      · cases h
      · exact List.mem_cons_of_mem _ (ih h)
    all_goals exact List.mem_cons_of_mem _ (ih h)

theorem Returns.fresh {s : S} (r : Reach Clean s) {i : Nat} {c : Call} {v : Int} {d : Msg} (h : Returns s i c v d) : Fresh i s := clean_fresh r (h.called r)
theorem pending_fresh {s : S} (r : Reach Clean s) {i : Nat} {c : Call} (h : pending i s.log = some c) : Fresh i s := clean_fresh r (pending_called h)

end Neco.Rt
