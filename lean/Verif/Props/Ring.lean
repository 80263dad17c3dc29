import Verif.Proof.Ring

/-! # C11: the bytes of the messages in the buffer of a channel -/

namespace Neco.Ring

/-- **C11** the buffer of a channel is a queue: whatever is done with it, what comes out is what went in, byte for byte and in order, and what is left is what went in and did not come out; and the message of a select is not in the way.
Nothing outside of what was allocated is touched.  Proved if an `int` can count the bytes in the buffer, and twice the messages -/
theorem C11_buffer_partial {ds cap : Nat} {junk : Nat → UInt8} {mem : Bool} {r r' : R} {as : List Act} {os : List (Option (List UInt8))} (hm : make ds cap junk mem = some r) (h1 : ds * cap ≤ INT_MAX) (h2 : 2 * cap ≤ INT_MAX + 2)
    (h : runs r as = some (os, r')) : r'.fault = false ∧ ∃ q, DoesAll { cap := cap } as os q := by
  obtain ⟨q, d, a⟩ := (Abs.make hm h1 h2).runs h
  exact ⟨a.ok, q, d⟩

theorem copyTo_outside {r : R} {x : Nat} {m : List UInt8} (h : (copyTo r x m).fault = false) : r.fault = false ∧ (copyTo r x m).room = r.room ∧ ∀ i, r.room ≤ i → (copyTo r x m).data i = r.data i := by
  unfold copyTo bad at h
  simp only [Bool.or_eq_false_iff, decide_eq_false_iff_not, not_or] at h
  refine ⟨h.1, rfl, fun i hi => ?_⟩
  unfold copyTo
  exact if_neg (by omega)

theorem advance_same (r : R) : (advance r).fault = r.fault ∧ (advance r).room = r.room ∧ (advance r).data = r.data := by
  unfold advance
  dsimp only
  split <;> exact ⟨rfl, rfl, rfl⟩

theorem step_outside {r r' : R} {a : Act} {o : Option (List UInt8)} (h : step r a = some (o, r')) (hf : r'.fault = false) : r.fault = false ∧ r'.room = r.room ∧ ∀ i, r.room ≤ i → r'.data i = r.data i := by
  cases a with
  | push m =>
    simp only [step] at h
    split at h <;> cases h
    unfold push at hf ⊢
    dsimp only at hf ⊢
    split at hf
    · rename_i h0
      rw [if_pos h0]
      obtain ⟨g1, g2, g3⟩ := copyTo_outside hf
      exact ⟨(Bool.or_eq_false_iff.mp g1).1, g2, g3⟩
    · rename_i h0
      rw [if_neg h0]
      exact ⟨(Bool.or_eq_false_iff.mp hf).1, rfl, fun _ _ => rfl⟩
  | pop =>
    simp only [step] at h
    split at h <;> cases h
    unfold pop at hf ⊢
    dsimp only at hf ⊢
    obtain ⟨a1, a2, a3⟩ := advance_same (if r.msgsize ≠ 0 then copyFrom r r.bufpos else ([], r)).2
    rw [a1] at hf
    rw [a2, a3]
    split at hf
    · rename_i h0
      rw [if_pos h0]
      exact ⟨(Bool.or_eq_false_iff.mp hf).1, rfl, fun _ _ => rfl⟩
    · rename_i h0
      rw [if_neg h0]
      exact ⟨hf, rfl, fun _ _ => rfl⟩
  | setCase m =>
    simp only [step] at h
    split at h <;> cases h
    unfold setCase at hf ⊢
    split at hf
    · rename_i h0
      rw [if_pos h0]
      exact copyTo_outside hf
    · rename_i h0
      rw [if_neg h0]
      exact ⟨hf, rfl, fun _ _ => rfl⟩
  | popCase =>
    simp only [step] at h
    split at h <;> cases h
    unfold popCase at hf ⊢
    dsimp only at hf ⊢
    rw [(advance_same _).1] at hf
    rw [(advance_same _).2.1, (advance_same _).2.2]
    split at hf
    · rename_i h0
      rw [if_pos h0]
      obtain ⟨g1, g2, g3⟩ := copyTo_outside hf
      exact ⟨(Bool.or_eq_false_iff.mp g1).1, g2, g3⟩
    · rename_i h0
      rw [if_neg h0]
      exact ⟨hf, rfl, fun _ _ => rfl⟩
  | getCase =>
    simp only [step] at h
    cases h
    unfold getCase at hf ⊢
    split at hf
    · rename_i h0
      rw [if_pos h0]
      exact ⟨(Bool.or_eq_false_iff.mp hf).1, rfl, fun _ _ => rfl⟩
    · rename_i h0
      rw [if_neg h0]
      exact ⟨hf, rfl, fun _ _ => rfl⟩

theorem runs_outside : ∀ {as : List Act} {r r' : R} {os : List (Option (List UInt8))}, runs r as = some (os, r') → r'.fault = false → r.fault = false ∧ r'.room = r.room ∧ ∀ i, r.room ≤ i → r'.data i = r.data i
  | [], r, r', os, h, hf => by
    simp only [runs, Option.some.injEq, Prod.mk.injEq] at h
    obtain ⟨_, rfl⟩ := h
    exact ⟨hf, rfl, fun _ _ => rfl⟩
  | a :: as, r, r', os, h, hf => by
    unfold runs at h
    split at h
    · cases h
    · rename_i o r1 hs
      split at h
      · cases h
      · rename_i os1 r2 hr
        cases h
        obtain ⟨g1, g2, g3⟩ := runs_outside hr hf
        obtain ⟨k1, k2, k3⟩ := step_outside hs g1
        exact ⟨k1, g2.trans k2, fun i hi => (g3 i (by rw [k2]; exact hi)).trans (k3 i hi)⟩

/-- **C11** memory that does not belong to the buffer of a channel is not written, under the same conditions -/
theorem C11_outside_partial {ds cap : Nat} {junk : Nat → UInt8} {mem : Bool} {r r' : R} {as : List Act} {os : List (Option (List UInt8))} (hm : make ds cap junk mem = some r) (h1 : ds * cap ≤ INT_MAX) (h2 : 2 * cap ≤ INT_MAX + 2)
    (h : runs r as = some (os, r')) {i : Nat} (hi : ds * (cap + 1) ≤ i) : r'.data i = junk i := by
  have hf := (C11_buffer_partial hm h1 h2 h).1
  unfold make at hm
  split at hm
  · cases hm
  · cases hm
    exact (runs_outside h hf).2.2 i (Nat.le_trans (Nat.mod_le _ _) hi)

/-- **C11** and there is room for as many messages as the channel was made for: a message can be pushed if and only if fewer than `cap` are in the buffer -/
theorem C11_room_partial {ds cap : Nat} {junk : Nat → UInt8} {mem : Bool} {r r' : R} {as : List Act} {os : List (Option (List UInt8))} {q : Q} (hm : make ds cap junk mem = some r) (h1 : ds * cap ≤ INT_MAX) (h2 : 2 * cap ≤ INT_MAX + 2)
    (h : runs r as = some (os, r')) (hd : DoesAll { cap := cap } as os q) {m : List UInt8} (hl : m.length = ds) : (step r' (.push m)).isSome = true ↔ q.items.length < cap := by
  obtain ⟨q', d, a⟩ := (Abs.make hm h1 h2).runs h
  have hcap : ∀ {q as os q'}, DoesAll q as os q' → q'.cap = q.cap := by
    intro q as os q' h
    induction h with
    | nil => rfl
    | cons d _ ih => rw [ih]; cases d <;> rfl
  have hlen : ∀ {q as os q1 p q2}, DoesAll q as os q1 → DoesAll p as os q2 → q.items = p.items → q1.items = q2.items := by
    intro q as os q1 p q2 h
    induction h generalizing p q2 with
    | nil => intro h2 he; cases h2; exact he
    | cons d _ ih =>
      intro h2 he
      cases h2 with
      | cons d2 t2 =>
        refine ih t2 ?_
        cases d <;> cases d2 <;> simp_all
  have hms : ∀ {as : List Act} {r r' : R} {os}, runs r as = some (os, r') → r'.msgsize = r.msgsize := by
    intro as
    induction as with
    | nil => intro r r' os h; cases h; rfl
    | cons b as ih =>
      intro r r' os h
      simp only [runs] at h
      split at h
      · cases h
      · rename_i o r1 h1
        split at h
        · cases h
        · rename_i h2
          cases h
          rw [ih h2]
          unfold step at h1
          split at h1 <;> (try split at h1) <;> cases h1 <;> simp only [push, pop, setCase, popCase, getCase, advance, copyTo, copyFrom] <;> (repeat' split) <;> rfl
  have hrm : r'.msgsize = ds := by
    rw [hms h]
    unfold make at hm
    split at hm <;> cases hm
    rfl
  have e1 := hlen d hd rfl
  have e2 : q'.cap = cap := hcap d
  rw [← e1, a.len, ← e2, a.cap]
  simp only [step]
  split
  · rename_i hc; simp [hc.1]
  · rename_i hc
    simp only [Option.isSome_none, Bool.false_eq_true, false_iff]
    intro hh
    exact hc ⟨hh, by rw [hrm, hl]⟩

/-- the hypotheses are met, with a buffer that wraps around and a select -/
example : ∃ r r' os, make 2 2 (fun _ => 7) true = some r ∧ 2 * 2 ≤ INT_MAX ∧
    runs r [.push [1, 2], .push [3, 4], .pop, .push [5, 6], .popCase, .getCase, .pop, .getCase] = some (os, r') ∧
    os = [none, none, some [1, 2], none, none, some [3, 4], some [5, 6], some [3, 4]] := ⟨_, _, _, rfl, by decide, rfl, by decide⟩

/-- it is not so for every channel that can be made: a channel for 65536 messages of 65536 bytes has a place for each, but the place for the message of a select cannot be computed -/
theorem C11_buffer_not_general : ¬ ∀ (ds cap : Nat) (junk : Nat → UInt8) (r r' : R) (as : List Act) (os : List (Option (List UInt8))), make ds cap junk true = some r → runs r as = some (os, r') → r'.fault = false := by
  intro h
  have := h 65536 65536 (fun _ => 0) _ _ [.getCase] _ rfl rfl
  revert this
  simp only [getCase, copyFrom, bad, slot, INT_MAX]
  decide +kernel

end Neco.Ring
