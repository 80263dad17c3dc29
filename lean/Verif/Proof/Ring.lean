import Verif.Spec.Ring

namespace Neco.Ring

/-- the bytes of a slot -/
def at' (r : R) (i : Nat) : List UInt8 := (List.range r.msgsize).map (fun k => r.data (slot r i + k))

theorem slot_lt {a i j : Nat} (h : i < j) : a * i + a ≤ a * j := by
  have := Nat.mul_le_mul_left a (show i + 1 ≤ j from h)
  rw [Nat.mul_succ] at this; exact this

theorem at_same {r : R} {i : Nat} {m : List UInt8} (h : m.length = r.msgsize) : at' (copyTo r i m) i = m := by
  apply List.ext_getElem
  · simp [at', copyTo, h]
  · intro k h1 h2
    simp only [at', copyTo, List.length_map, List.length_range, slot] at h1 ⊢
    simp only [List.getElem_map, List.getElem_range]
    rw [if_pos ⟨by omega, by omega⟩, Nat.add_sub_cancel_left]
    simp [List.getD, h2]

theorem at_other {r : R} {i j : Nat} {m : List UInt8} (h : i ≠ j) : at' (copyTo r i m) j = at' r j := by
  apply List.ext_getElem
  · simp [at', copyTo]
  · intro k h1 h2
    simp only [at', copyTo, List.length_map, List.length_range, slot] at h1 ⊢
    simp only [List.getElem_map, List.getElem_range]
    rw [if_neg]
    rcases Nat.lt_or_gt_of_ne h with hl | hl
    · have := slot_lt (a := r.msgsize) hl; omega
    · have := slot_lt (a := r.msgsize) hl; omega

/-- the position of the `k`th message -/
def pos (r : R) (k : Nat) : Nat := if r.bufpos + k ≥ r.bufcap then r.bufpos + k - r.bufcap else r.bufpos + k

/-- the buffer has what the queue has -/
structure Abs (r : R) (q : Q) : Prop where
  cap : q.cap = r.bufcap
  len : q.items.length = r.buflen
  le : r.buflen ≤ r.bufcap
  p : r.bufpos < r.bufcap ∨ (r.bufpos = 0 ∧ r.bufcap = 0)
  it : ∀ k (h : k < q.items.length), at' r (pos r k) = q.items[k]
  cs : ∀ c, q.case = some c → at' r r.bufcap = c
  ok : r.fault = false
  room : r.room = r.msgsize * (r.bufcap + 1)
  fit : r.msgsize * r.bufcap ≤ INT_MAX
  fit2 : 2 * r.bufcap ≤ INT_MAX + 2

theorem Abs.good {r : R} {q : Q} (h : Abs r q) {i : Nat} (hi : i ≤ r.bufcap) : bad r i = false := by
  have h1 := Nat.mul_le_mul_left r.msgsize hi
  have h2 := h.fit
  have h3 := h.room
  rw [Nat.mul_succ] at h3
  have h4 : ¬ (slot r i > INT_MAX ∨ slot r i + r.msgsize > r.room) := by unfold slot; omega
  exact decide_eq_false h4

theorem at_zero {r : R} (h : r.msgsize = 0) (i : Nat) : at' r i = [] := by simp [at', h]

theorem Abs.pos_lt {r : R} {q : Q} (h : Abs r q) {k : Nat} (hk : k < r.bufcap) : pos r k < r.bufcap := by
  have := h.p
  unfold pos; split <;> omega

theorem Abs.pos_ne {r : R} {q : Q} (h : Abs r q) {k l : Nat} (hk : k < r.bufcap) (hl : l < r.bufcap) (hn : k ≠ l) : pos r k ≠ pos r l := by
  have := h.p
  unfold pos; split <;> split <;> omega

theorem Abs.copyTo' {r : R} {q : Q} (h : Abs r q) {i : Nat} (hi : i ≤ r.bufcap) (m : List UInt8) : (copyTo r i m).fault = false := by
  simp [copyTo, h.ok, h.good hi]

/-- write a message if there are bytes in it -/
def wr (r : R) (i : Nat) (m : List UInt8) : R := if r.msgsize > 0 then copyTo r i m else r

theorem wr_same {r : R} {i : Nat} {m : List UInt8} (h : m.length = r.msgsize) : at' (wr r i m) i = m := by
  unfold wr; split
  · exact at_same h
  · rw [at_zero (by omega)]
    exact (List.eq_nil_of_length_eq_zero (by omega)).symm
theorem wr_other {r : R} {i j : Nat} {m : List UInt8} (h : i ≠ j) : at' (wr r i m) j = at' r j := by
  unfold wr; split
  · exact at_other h
  · rfl
@[simp] theorem wr_bufpos {r i m} : (wr r i m).bufpos = r.bufpos := by unfold wr; split <;> rfl
@[simp] theorem wr_buflen {r i m} : (wr r i m).buflen = r.buflen := by unfold wr; split <;> rfl
@[simp] theorem wr_bufcap {r i m} : (wr r i m).bufcap = r.bufcap := by unfold wr; split <;> rfl
@[simp] theorem wr_msgsize {r i m} : (wr r i m).msgsize = r.msgsize := by unfold wr; split <;> rfl
@[simp] theorem wr_room {r i m} : (wr r i m).room = r.room := by unfold wr; split <;> rfl
theorem Abs.wr_fault {r : R} {q : Q} (h : Abs r q) {i : Nat} (hi : i ≤ r.bufcap) (m : List UInt8) : (wr r i m).fault = false := by
  unfold wr; split
  · exact h.copyTo' hi m
  · exact h.ok

theorem Abs.setCase {r : R} {q : Q} (h : Abs r q) {m : List UInt8} (hm : m.length = r.msgsize) : Abs (setCase r m) { q with case := some m } := by
  have e : Ring.setCase r m = wr r r.bufcap m := rfl
  rw [e]
  refine ⟨by simpa using h.cap, by simpa using h.len, by simpa using h.le, by simpa using h.p, ?_, ?_, h.wr_fault (Nat.le_refl _) m, by simpa using h.room, by simpa using h.fit, by simpa using h.fit2⟩
  · intro k hk
    have hk' : k < q.items.length := hk
    have hl := h.len
    have hle := h.le
    have hp := h.pos_lt (k := k) (by omega)
    have : pos (wr r r.bufcap m) k = pos r k := by simp [pos]
    rw [this, wr_other (by omega)]
    exact h.it k hk'
  · intro c hc
    cases hc
    rw [wr_bufcap]
    exact wr_same hm

theorem Abs.push {r : R} {q : Q} (h : Abs r q) {m : List UInt8} (hm : m.length = r.msgsize) (hl : r.buflen < r.bufcap) : Abs (push r m) { q with items := q.items ++ [m] } := by
  have hp := h.p
  have hf2 := h.fit2
  have hlen := h.len
  have hfit : decide (r.bufpos + r.buflen > INT_MAX) = false := by simp; omega
  have e : Ring.push r m = { wr r (pos r r.buflen) m with buflen := r.buflen + 1 } := by
    unfold Ring.push
    dsimp only
    simp only [hfit, Bool.or_false]
    by_cases hz : r.msgsize > 0
    · simp only [wr, pos, if_pos hz]; rfl
    · simp only [wr, if_neg hz]
  have hpl := h.pos_lt hl
  have ha : ∀ (r : R) n i, at' { r with buflen := n } i = at' r i := fun _ _ _ => rfl
  rw [e]
  refine ⟨by simpa using h.cap, by simp [h.len], by simp; omega, by simpa using h.p, ?_, ?_, h.wr_fault (by omega) m, by simpa using h.room, by simpa using h.fit, by simpa using h.fit2⟩
  · intro k hk
    have hk' : k < q.items.length + 1 := by simpa using hk
    have hpe : pos { wr r (pos r r.buflen) m with buflen := r.buflen + 1 } k = pos r k := by simp [pos]
    rw [hpe, ha]
    by_cases hkl : k = r.buflen
    · subst hkl
      rw [wr_same hm, List.getElem_append_right (by omega)]
      simp [hlen]
    · have hk2 : k < q.items.length := by omega
      rw [wr_other (h.pos_ne hl (by omega) (Ne.symm hkl)), List.getElem_append_left hk2]
      exact h.it k hk2
  · intro c hc
    rw [ha, show ({ wr r (pos r r.buflen) m with buflen := r.buflen + 1 } : R).bufcap = r.bufcap by simp, wr_other (by omega)]
    exact h.cs c hc

theorem Abs.advance {r : R} {q : Q} (h : Abs r q) {m l} (hq : q.items = m :: l) : Abs (advance r) { q with items := l } := by
  have hp := h.p
  have hlen := h.len
  have hle := h.le
  rw [hq, List.length_cons] at hlen
  have e : Ring.advance r = { r with bufpos := if r.bufpos + 1 = r.bufcap then 0 else r.bufpos + 1, buflen := r.buflen - 1 } := by
    unfold Ring.advance
    dsimp only
    split <;> rfl
  rw [e]
  refine ⟨h.cap, by simp; omega, by simp; omega, ?_, ?_, h.cs, h.ok, h.room, h.fit, h.fit2⟩
  · dsimp only; split <;> omega
  · intro k hk
    have hk' : k < l.length := hk
    have := h.it (k + 1) (by rw [hq, List.length_cons]; omega)
    have hg : q.items[k + 1]'(by rw [hq, List.length_cons]; omega) = l[k] := by simp [hq]
    rw [hg] at this
    rw [← this]
    have hpe : pos { r with bufpos := if r.bufpos + 1 = r.bufcap then 0 else r.bufpos + 1, buflen := r.buflen - 1 } k = pos r (k + 1) := by
      unfold pos; dsimp only; split <;> (try split) <;> split <;> omega
    rw [hpe]; rfl

theorem Abs.copyFrom {r : R} {q : Q} (h : Abs r q) {i : Nat} (hi : i ≤ r.bufcap) : copyFrom r i = (at' r i, r) := by
  unfold Ring.copyFrom
  rw [h.good hi, Bool.or_false]; rfl

theorem Abs.rd {r : R} {q : Q} (h : Abs r q) {i : Nat} (hi : i ≤ r.bufcap) : (if r.msgsize ≠ 0 then Ring.copyFrom r i else ([], r)) = (at' r i, r) := by
  split
  · exact h.copyFrom hi
  · rename_i hn; rw [at_zero (by omega)]

theorem Abs.first {r : R} {q : Q} (h : Abs r q) {m l} (hq : q.items = m :: l) : at' r r.bufpos = m ∧ r.bufpos < r.bufcap := by
  have hp := h.p
  have hlen := h.len
  have hle := h.le
  rw [hq, List.length_cons] at hlen
  have := h.it 0 (by rw [hq]; simp)
  have h0 : pos r 0 = r.bufpos := by unfold pos; split <;> omega
  rw [h0] at this
  refine ⟨?_, by omega⟩
  rw [this]; simp [hq]

theorem at_length {r : R} {i} : (at' r i).length = r.msgsize := by simp [at']

theorem Abs.items {r : R} {q : Q} (h : Abs r q) (hb : r.buflen > 0) : ∃ m l, q.items = m :: l := by
  have := h.len
  cases hq : q.items with
  | nil => rw [hq] at this; simp at this; omega
  | cons m l => exact ⟨m, l, rfl⟩

theorem Abs.step {r r' : R} {q : Q} {a : Act} {o} (h : Abs r q) (hs : step r a = some (o, r')) : ∃ q', Does q a o q' ∧ Abs r' q' := by
  cases a with
  | push m =>
    simp only [Ring.step] at hs; split at hs
    · cases hs; rename_i hc
      exact ⟨_, .push (by rw [h.len, h.cap]; exact hc.1), h.push hc.2 hc.1⟩
    · cases hs
  | pop =>
    simp only [Ring.step] at hs; split at hs
    · cases hs; rename_i hc
      obtain ⟨m, l, hq⟩ := h.items hc
      have hf := h.first hq
      unfold Ring.pop
      dsimp only
      rw [h.rd (by omega)]
      dsimp only
      rw [hf.1]
      exact ⟨_, .pop hq, h.advance hq⟩
    · cases hs
  | setCase m =>
    simp only [Ring.step] at hs; split at hs
    · cases hs; rename_i hc
      exact ⟨_, .setCase, h.setCase hc⟩
    · cases hs
  | popCase =>
    simp only [Ring.step] at hs; split at hs
    · cases hs; rename_i hc
      obtain ⟨m, l, hq⟩ := h.items hc
      have hf := h.first hq
      have hb : Ring.popCase r = Ring.advance (Ring.setCase r m) := by
        unfold Ring.popCase Ring.setCase
        dsimp only
        rw [h.copyFrom (by omega), hf.1]
        by_cases hz : r.msgsize = 0
        · rw [if_neg (by omega), if_neg (by omega)]
        · rw [if_pos hz, if_pos (by omega)]
      rw [hb]
      refine ⟨_, .popCase hq, ?_⟩
      have := h.setCase (m := m) (by rw [← hf.1, at_length])
      exact this.advance hq
    · cases hs
  | getCase =>
    cases hs
    unfold Ring.getCase
    rw [h.rd (Nat.le_refl _)]
    exact ⟨_, .getCase h.cs, h⟩

theorem Abs.runs {as : List Act} : ∀ {r r' : R} {q : Q} {os}, Abs r q → runs r as = some (os, r') → ∃ q', DoesAll q as os q' ∧ Abs r' q' := by
  induction as with
  | nil => intro r r' q os h hs; cases hs; exact ⟨_, .nil, h⟩
  | cons a as ih =>
    intro r r' q os h hs
    simp only [Ring.runs] at hs
    split at hs
    · cases hs
    · rename_i o r1 h1
      split at hs
      · cases hs
      · rename_i os' r2 h2
        cases hs
        obtain ⟨q1, d1, a1⟩ := h.step h1
        obtain ⟨q2, d2, a2⟩ := ih a1 h2
        exact ⟨q2, .cons d1 d2, a2⟩

theorem Abs.make {ds cap : Nat} {junk : Nat → UInt8} {mem : Bool} {r : R} (h : make ds cap junk mem = some r) (h1 : ds * cap ≤ INT_MAX) (h2 : 2 * cap ≤ INT_MAX + 2) : Abs r { cap := cap } := by
  unfold Ring.make at h
  split at h
  · cases h
  · rename_i hn
    cases h
    have hr : ds * (cap + 1) < 2 ^ 64 := by
      rw [Nat.mul_succ]
      simp only [INT_MAX] at *
      omega
    refine ⟨rfl, rfl, by simp, ?_, by intro k hk; simp at hk, (by intro c hc; cases hc), rfl, Nat.mod_eq_of_lt hr, h1, h2⟩
    dsimp only; omega

end Neco.Ring
