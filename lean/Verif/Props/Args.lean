import Verif.Proof.Args4

/-! # C61: arguments and memory of coroutines -/

namespace Neco.Args

theorem given_run {s t : S} {l : List Act} {a : Nat} {args : List Int} (h : Inv s) (r : Run s l t) (ha : a ∈ s.active) (hg : s.given a = args) (hx : .exit a ∉ l) : a ∈ t.active ∧ t.given a = args := by
  induction r with
  | nil => exact ⟨ha, hg⟩
  | cons x hs r ih =>
    simp only [List.mem_cons, not_or] at hx
    have h' := h.step hs
    refine ih h' ?_ ?_ hx.2
    · unfold step at hs
      split at hs
      · cases hs
      cases x with
      | start args' gen m =>
        cases hs
        obtain ⟨_, h1, h2⟩ := start_inv h args' gen m
        cases e : (start _ args' gen m).1 with
        | none => rw [(h1 e).1]; exact ha
        | some b => rw [(h2 b e).1]; exact List.mem_cons_of_mem _ ha
      | exit b =>
        simp only at hs
        split at hs
        · cases hs
          simp only [List.mem_filter, decide_eq_true_eq]
          exact ⟨ha, by rintro rfl; exact hx.1 rfl⟩
        · split at hs
          · cases hs; rw [Fr.release_.active]; exact ha
          · cases hs
      | cleanup b => simp only at hs; split at hs <;> cases hs; exact ha
      | rc n => cases hs; simp only [Fr.freeAll.active]; exact ha
      | gretain g => simp only at hs; split at hs <;> cases hs; simp only [Fr.retain.active]; exact ha
      | grelease g => simp only at hs; split at hs <;> cases hs; simp only [Fr.release.active]; exact ha
      | finish => simp only at hs; split at hs <;> cases hs; simp only [Fr.freeAll.active]; exact ha
    · unfold step at hs
      split at hs
      · cases hs
      cases x with
      | start args' gen m =>
        cases hs
        obtain ⟨h0, h1, h2⟩ := start_inv h args' gen m
        cases e : (start _ args' gen m).1 with
        | none => rw [(h1 e).2.2.2.1]; exact hg
        | some b =>
          have hn := h0.own.nd
          rw [(h2 b e).1] at hn
          have hne : a ≠ b := by
            rintro rfl
            simp only [List.cons_append, List.nodup_cons, List.mem_append] at hn
            exact hn.1 (.inl ha)
          rw [(h2 b e).2.2.1 a hne]; exact hg
      | exit b =>
        simp only at hs
        split at hs
        · cases hs; simp only [Fr.release_.given]; exact hg
        · split at hs
          · cases hs; rw [Fr.release_.given]; exact hg
          · cases hs
      | cleanup b => simp only at hs; split at hs <;> cases hs; exact hg
      | rc n => cases hs; simp only [Fr.freeAll.given]; exact hg
      | gretain g => simp only at hs; split at hs <;> cases hs; simp only [Fr.retain.given]; exact hg
      | grelease g => simp only at hs; split at hs <;> cases hs; simp only [Fr.release.given]; exact hg
      | finish => simp only at hs; split at hs <;> cases hs; simp only [Fr.freeAll.given]; exact hg

theorem run_inv {s t : S} {l : List Act} (h : Inv s) (r : Run s l t) : Inv t := by
  induction r with
  | nil => exact h
  | cons x hs _ ih => exact ih (h.step hs)

theorem setArgs_none {s : S} {a : Nat} {args : List Int} {m : Mem} (h : setArgs s a args m = none) : 4 < args.length ∧ m.args = false := by
  unfold setArgs at h
  by_cases h4 : args.length ≤ 4
  · rw [if_pos h4] at h; cases h
  · rw [if_neg h4] at h
    cases hm : m.args with
    | true => rw [hm] at h; cases h
    | false => exact ⟨by omega, rfl⟩

/-- From the moment a coroutine was started until it exits, whatever other coroutines start, exit and free in between, `argc` is the number of
arguments it was started with and `argv[i]` is the i-th one of them. -/
theorem C61_args {s t : S} {args : List Int} {gen : Bool} {m : Mem} {l : List Act} {a : Nat} (r : Reach s)
    (ha : (start s args gen m).1 = some a) (hr : Run s (.start args gen m :: l) t) (hx : .exit a ∉ l) :
    readArgc t a = some args.length ∧ ∀ i, i < args.length → readArg t a i = args[i]? := by
  cases hr with
  | cons x hs hr =>
    have h := reach_inv r
    have h1 := h.step hs
    have e : step s (.start args gen m) = some (start s args gen m).2.2 ∨ step s (.start args gen m) = none := by
      unfold step; split
      · exact .inr rfl
      · exact .inl rfl
    rcases e with e | e
    · rw [e] at hs
      cases hs
      obtain ⟨_, _, h2⟩ := start_inv h args gen m
      obtain ⟨e1, e2, _⟩ := h2 a ha
      obtain ⟨g1, g2⟩ := given_run h1 hr (by rw [e1]; simp) e2 hx
      have h3 : Inv t := run_inv h1 hr
      have := h3.seen a g1
      unfold Seen at this
      rw [g2] at this
      exact this
    · rw [e] at hs; cases hs

/-- Nothing that happens to the control blocks, the stacks, the arguments and the generators of coroutines touches memory that is not there, or frees
it twice; whichever allocations fail. -/
theorem C61_safe {s : S} (r : Reach s) : s.fault = false := (reach_inv r).own.flt

/-- Nothing leaks: all memory belongs to a coroutine that is running, that is exiting, or that waits to be used again, or is a generator the user
has a reference to; and it belongs to one of them only. -/
theorem C61_no_leak {s : S} (r : Reach s) {b : Nat} {k : Blk} (hb : s.heap b = some k) :
    (∃ a ∈ s.active ++ s.ending ++ s.pool, has s a b) ∨ 0 < s.refs b := by
  have h := (reach_inv r).own
  rw [List.append_assoc]
  cases k with
  | co c => exact .inl ⟨b, h.oco b c hb, .inl rfl⟩
  | stack =>
    obtain ⟨a, c, h1, h2⟩ := h.ost b hb
    exact .inl ⟨a, h.oco a c h1, .inr (by rw [h1]; exact .inl h2)⟩
  | args l =>
    obtain ⟨a, c, h1, h2⟩ := h.oar b l hb
    exact .inl ⟨a, h.oco a c h1, .inr (by rw [h1]; exact .inr (.inl h2))⟩
  | chan rc =>
    obtain ⟨h1, h2⟩ := h.och b rc hb
    rcases h2 with rfl | rfl
    · exact .inr h1
    · obtain ⟨a, c, h1, h2⟩ := h.ogn b hb
      exact .inl ⟨a, h.oco a c h1, .inr (by rw [h1]; exact .inr (.inr h2))⟩

/-- No block belongs to two coroutines. -/
theorem C61_separate {s : S} (r : Reach s) {a b x : Nat} (ha : a ∈ s.active ++ s.ending ++ s.pool) (hb : b ∈ s.active ++ s.ending ++ s.pool)
    (h1 : has s a x) (h2 : has s b x) : a = b := by
  have h := (reach_inv r).own
  rw [List.append_assoc] at ha hb
  obtain ⟨c, hc⟩ := h.isco a ha
  obtain ⟨d, hd⟩ := h.isco b hb
  unfold has at h1 h2
  simp only [hc, hd] at h1 h2
  have a1 := h.st a c hc
  have a2 := h.st b d hd
  have a3 := h.ar a c x hc
  have a4 := h.ar b d x hd
  have a5 := h.gn a c x hc
  have a6 := h.gn b d x hd
  have a7 := h.ist a b c d hc hd
  have a8 := h.iar a b c d x hc hd
  have a9 := h.ign a b c d x hc hd
  grind

theorem ended_empty {s : S} (r : Reach s) (he : s.ended = true) : s.active = [] ∧ s.ending = [] ∧ s.pool = [] := by
  cases r with
  | init => cases he
  | step r x hs =>
    rename_i s0
    have h := reach_inv r
    unfold step at hs
    split at hs
    · cases hs
    rename_i hne
    have hn : s0.ended = false := by cases h' : s0.ended <;> simp_all
    cases x with
    | start args gen m =>
      cases hs
      have : (start s0 args gen m).2.2.ended = s0.ended := by
        obtain ⟨_, h1, h2⟩ := start_inv h args gen m
        cases e : (start s0 args gen m).1 with
        | none => exact (h1 e).2.2.2.2.2
        | some b => exact (h2 b e).2.2.2
      rw [this, hn] at he; cases he
    | exit b =>
      simp only at hs
      split at hs
      · cases hs; simp only [Fr.release_.ended, hn] at he; cases he
      · split at hs
        · cases hs; rw [Fr.release_.ended, hn] at he; cases he
        · cases hs
    | cleanup b => simp only at hs; split at hs <;> cases hs; simp [hn] at he
    | rc n => cases hs; simp [Fr.freeAll.ended, hn] at he
    | gretain g => simp only at hs; split at hs <;> cases hs; simp [Fr.retain.ended, hn] at he
    | grelease g => simp only at hs; split at hs <;> cases hs; simp [Fr.release.ended, hn] at he
    | finish =>
      simp only at hs; split at hs <;> cases hs
      rename_i h1
      exact ⟨by simp only [Fr.freeAll.active]; exact h1.1, by simp only [Fr.freeAll.ending]; exact h1.2, rfl⟩

/-- When the runtime has ended, all memory of coroutines is freed; what may be left are generators the user did not release, with just the
references the user has. -/
theorem C61_end {s : S} (r : Reach s) (he : s.ended = true) {b : Nat} {k : Blk} (hb : s.heap b = some k) : k = .chan (s.refs b) ∧ 0 < s.refs b := by
  obtain ⟨h1, h2, h3⟩ := ended_empty r he
  have h := (reach_inv r).own
  rw [h1, h2, h3] at h
  have hA : ∀ a c, s.heap a ≠ some (.co c) := fun a c hc => by simpa using h.oco a c hc
  cases k with
  | co c => exact absurd hb (hA b c)
  | stack =>
    obtain ⟨a, c, h1, h2⟩ := h.ost b hb
    exact absurd h1 (hA a c)
  | args l =>
    obtain ⟨a, c, h1, h2⟩ := h.oar b l hb
    exact absurd h1 (hA a c)
  | chan rc =>
    obtain ⟨h1, h2⟩ := h.och b rc hb
    rcases h2 with rfl | rfl
    · exact ⟨rfl, h1⟩
    · obtain ⟨a, c, h1, h2⟩ := h.ogn b hb
      exact absurd h1 (hA a c)

/-- A start that fails for lack of memory starts nothing and gives no reference to the user; all other coroutines keep their arguments.  (By
`C61_no_leak` it leaves no memory behind either.) -/
theorem C61_fail {s : S} (r : Reach s) {args : List Int} {gen : Bool} {m : Mem} {t : S} (hn : (start s args gen m).1 = none) (hs : step s (.start args gen m) = some t) :
    t.active = s.active ∧ t.ending = s.ending ∧ t.refs = s.refs ∧ (∀ x ∈ t.pool, x ∈ s.pool) ∧
    ∀ a ∈ s.active, readArgc t a = readArgc s a ∧ ∀ i, i < (s.given a).length → readArg t a i = readArg s a i := by
  have h := reach_inv r
  have ht := h.step hs
  unfold step at hs
  split at hs
  · cases hs
  cases hs
  obtain ⟨_, h1, _⟩ := start_inv h args gen m
  obtain ⟨e1, e2, e3, e4, e5, _⟩ := h1 hn
  refine ⟨e1, e2, e3, e5, fun a ha => ?_⟩
  have g1 := h.seen a ha
  have g2 := ht.seen a (by rw [e1]; exact ha)
  unfold Seen at g1 g2
  rw [e4] at g2
  exact ⟨by rw [g1.1, g2.1], fun i hi => by rw [g1.2 i hi, g2.2 i hi]⟩

/-- `neco_start` and `neco_gen_start` fail only if an allocation failed. -/
theorem C61_works {s : S} {args : List Int} {gen : Bool} {m : Mem} (hn : (start s args gen m).1 = none) :
    m.co = false ∨ m.stack = false ∨ (gen = true ∧ m.chan = false) ∨ (4 < args.length ∧ m.args = false) := by
  obtain ⟨m1, m2, m3, m4⟩ := m
  cases m1 with
  | false => exact .inl rfl
  | true =>
    cases m2 with
    | false => exact .inr (.inl rfl)
    | true =>
      have ht : ∃ a s1, take s ⟨true, true, m3, m4⟩ = (some a, s1) := by
        unfold take
        cases s.pool with
        | cons a l => exact ⟨_, _, rfl⟩
        | nil => exact ⟨_, _, rfl⟩
      obtain ⟨a, s1, e⟩ := ht
      unfold start at hn
      rw [e] at hn
      simp only at hn
      cases gen with
      | false =>
        simp only [Bool.false_eq_true, ↓reduceIte] at hn
        split at hn
        · rename_i h1; exact .inr (.inr (.inr (setArgs_none h1)))
        · cases hn
      | true =>
        cases m3 with
        | false => exact .inr (.inr (.inl ⟨rfl, rfl⟩))
        | true =>
          simp only [↓reduceIte] at hn
          split at hn
          · rename_i h1; exact .inr (.inr (.inr (setArgs_none h1)))
          · cases hn

/-- When the generator's channel and the control block were allocated but the memory for more than four arguments was not, `neco_gen_start` returns
`NECO_NOMEM` and leaves in `*gen` the address of a channel that it has freed. -/
theorem C61_gen_untouched_not_general : ¬ ∀ (s : S) (args : List Int) (m : Mem) (g : Nat), Reach s → (start s args true m).1 = none →
    (start s args true m).2.1 = some g → (start s args true m).2.2.heap g ≠ none := by
  intro h
  refine h {} [1, 2, 3, 4, 5] ⟨true, true, true, false⟩ 3 .init ?_ ?_ ?_ <;> decide +kernel

/-- In all other cases a `neco_gen_start` that fails does not change `*gen`. -/
theorem C61_gen_untouched_partial {s : S} {args : List Int} {m : Mem} (hm : args.length ≤ 4 ∨ m.args = true) (hn : (start s args true m).1 = none) : (start s args true m).2.1 = none := by
  unfold start at hn ⊢
  generalize take s m = q at hn ⊢
  rcases q with ⟨_ | a, s1⟩
  · rfl
  · simp only [↓reduceIte] at hn ⊢
    by_cases hc : m.chan = true
    · simp only [hc, ↓reduceIte] at hn ⊢
      split at hn
      · rename_i h1
        obtain ⟨h2, h3⟩ := setArgs_none h1
        rcases hm with hm | hm
        · omega
        · rw [hm] at h3; cases h3
      · cases hn
    · simp only [hc, Bool.false_eq_true, ↓reduceIte]

/-- what `C61_safe` excludes is seen: freeing what is not there, twice, or writing to it -/
example (s : S) (a : Nat) (f : Co → Co) (h : s.heap a = none) : (free s a).fault = true ∧ (release s a).fault = true ∧ (mod s a f).fault = true := by
  refine ⟨?_, ?_, ?_⟩ <;> simp [free, release, mod, h, crash]

/-! A coroutine with six arguments, while others come and go: -/

def runs : List Act → S → Option S
  | [], s => some s
  | x :: l, s => (step s x).bind (runs l)
theorem runs_reach : ∀ {l : List Act} {s t : S}, Reach s → runs l s = some t → Reach t
  | [], s, t, r, h => by cases h; exact r
  | x :: l, s, t, r, h => by
    simp only [runs, Option.bind_eq_some_iff] at h
    obtain ⟨u, h1, h2⟩ := h
    exact runs_reach (.step r x h1) h2

def ok : Mem := ⟨true, true, true, true⟩
def demo : List Act := [.start [1, 2, 3, 4, 5, 6] false ok, .start [7] true ok, .exit 4, .cleanup 4, .start [8, 9] false ok, .exit 4, .cleanup 4, .start [1, 1, 1, 1, 1] true ⟨true, true, true, false⟩, .rc 1]

example : ((runs demo {}).map fun s => (s.active, readArgc s 1, (List.range 6).map (readArg s 1), s.refs 6)) = some ([1], some 6, [some 1, some 2, some 3, some 4, some 5, some 6], 1) := by
  decide +kernel
/-- and at the end everything is freed -/
example : ((runs (demo ++ [.exit 1, .grelease 6, .cleanup 1, .finish]) {}).map fun s => (s.ended, (List.range s.next).filterMap s.heap)) = some (true, []) := by
  decide +kernel
/-- a reference that is kept outlives the runtime -/
example : ((runs (demo ++ [.exit 1, .cleanup 1, .finish]) {}).map fun s => (s.ended, (List.range s.next).filterMap s.heap)) = some (true, [.chan 1]) := by
  decide +kernel

end Neco.Args
