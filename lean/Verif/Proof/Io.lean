import Verif.Spec.Io

/-! # Lemmas: reading and writing -/

namespace Neco.Io
open Neco.Err

/-! ## Memory -/

@[simp] theorem cells_length (m : Nat → UInt8) (o n : Nat) : (cells m o n).length = n := by simp [cells]
@[simp] theorem cells_zero (m : Nat → UInt8) (o : Nat) : cells m o 0 = [] := by simp [cells]

theorem cells_get (m : Nat → UInt8) (o n k : Nat) (h : k < n) : (cells m o n)[k]? = some (m (o + k)) := by
  simp [cells, h]

theorem cells_add (m : Nat → UInt8) (o a b : Nat) : cells m o (a + b) = cells m o a ++ cells m (o + a) b := by
  simp only [cells, List.range_add, List.map_append, List.map_map]
  congr 1
  exact List.map_congr_left (fun i _ => by simp only [Function.comp]; congr 1; omega)

theorem cells_take (m : Nat → UInt8) (o n k : Nat) (h : k ≤ n) : (cells m o n).take k = cells m o k := by
  obtain ⟨c, rfl⟩ := Nat.exists_eq_add_of_le h
  rw [cells_add, List.take_append_of_le_length (by simp), List.take_of_length_le (by simp)]

theorem cells_drop (m : Nat → UInt8) (o n k : Nat) (h : k ≤ n) : (cells m o n).drop k = cells m (o + k) (n - k) := by
  obtain ⟨c, rfl⟩ := Nat.exists_eq_add_of_le h
  rw [cells_add, List.drop_append_of_le_length (by simp), List.drop_of_length_le (by simp)]
  simp

theorem cells_put_eq (m : Nat → UInt8) (o : Nat) (bs : List UInt8) : cells (put m o bs) o bs.length = bs := by
  apply List.ext_getElem?
  intro k
  by_cases h : k < bs.length
  · rw [cells_get _ _ _ _ h]
    simp [put, h]
  · rw [List.getElem?_eq_none (by simp; omega), List.getElem?_eq_none (by omega)]

theorem cells_congr {m m' : Nat → UInt8} {o n : Nat} (h : ∀ k, o ≤ k → k < o + n → m k = m' k) : cells m o n = cells m' o n := by
  refine List.map_congr_left (fun i hi => h _ (by omega) ?_)
  have := List.mem_range.mp hi; omega

theorem cells_put_before (m : Nat → UInt8) (o o' n : Nat) (bs : List UInt8) (h : o' + n ≤ o) : cells (put m o bs) o' n = cells m o' n := by
  refine cells_congr (fun k _ h2 => ?_)
  simp only [put]; rw [if_neg (by omega)]

/-! ## The invariant of the memory of a stream -/

/-- memory of a stream -/
structure Inv (s : Str) : Prop where
  flt : s.fault = false
  room : s.room = s.cap
  cap : s.buffered = true → 0 < s.cap
  rd0 : s.rdAt = none → s.rdPos = 0 ∧ s.rdLen = 0
  rdc : s.rdPos + s.rdLen ≤ s.cap
  wr0 : s.wrAt = none → s.wrLen = 0
  wrc : s.wrLen ≤ s.cap
  ne : ∀ b, s.rdAt = some b → s.wrAt ≠ some b
  hr : s.rdAt ≠ some .hwr
  hw : s.wrAt ≠ some .hrd
  unb : s.buffered = false → s.rdAt = none ∧ s.wrAt = none ∧ s.cap = 0
  heap : s.heap.Perm (release s)

theorem size_eq {s : Str} (h : Inv s) (b : Blk) : size s b = s.cap := by
  cases b <;> simp [size, h.room]

theorem inv_make {buffered : Bool} {n : Nat} {s : Str} (hf : Fits n) (h : make buffered n = some s) : Inv s ∧ rdBuf s = [] ∧ past s = [] ∧ wrBuf s = [] ∧ s.buffered = buffered := by
  unfold make at h
  unfold Fits at hf
  split at h
  · rename_i hb
    dsimp only at h
    have hlt : HEADER + (if n = 0 then 4096 else n) < 2 ^ 64 ∧ 0 < (if n = 0 then 4096 else n) := by simp only [HEADER]; split <;> omega
    generalize (if n = 0 then 4096 else n) = c at h hlt
    rw [Nat.mod_eq_of_lt hlt.1, if_neg (by omega)] at h
    cases h
    refine ⟨⟨rfl, ?_, fun _ => hlt.2, fun _ => ⟨rfl, rfl⟩, Nat.zero_le _, fun _ => rfl, Nat.zero_le _, ?_, ?_, ?_, ?_, ?_⟩, rfl, rfl, rfl, hb.symm⟩ <;> simp [release]
  · rename_i hb
    cases h
    refine ⟨⟨rfl, rfl, ?_, fun _ => ⟨rfl, rfl⟩, Nat.zero_le _, fun _ => rfl, Nat.zero_le _, ?_, ?_, ?_, ?_, ?_⟩, rfl, rfl, rfl, ?_⟩ <;> simp [release]
    simpa using hb

/-- what a user can tell of the buffers -/
def view (s : Str) : List UInt8 × List UInt8 × List UInt8 × Bool := (past s, rdBuf s, wrBuf s, s.buffered)

theorem inv_ensureRd {s : Str} (h : Inv s) (hb : s.buffered = true) (ok : Bool) :
    Inv (ensureRd s ok).2 ∧ view (ensureRd s ok).2 = view s ∧ ((ensureRd s ok).1 = true → (ensureRd s ok).2.rdAt ≠ none) ∧ (ensureRd s ok).2.cap = s.cap ∧ (ensureRd s ok).2.rdLen = s.rdLen := by
  unfold ensureRd
  split
  · rename_i h0
    have hz := h.rd0 h0
    split
    · rename_i w0
      refine ⟨⟨h.flt, h.room, h.cap, ?_, h.rdc, h.wr0, h.wrc, ?_, ?_, h.hw, ?_, ?_⟩, ?_, ?_, rfl, rfl⟩
      · intro e; cases e
      · intro b e; rw [w0]; simp
      · simp
      · intro e; rw [hb] at e; cases e
      · refine h.heap.trans ?_; simp [release, hb, h0, w0]
      · simp [view, past, rdBuf, wrBuf, h0, w0, hz]
      · simp
    · rename_i w0
      split
      · refine ⟨⟨h.flt, h.room, h.cap, ?_, h.rdc, h.wr0, h.wrc, ?_, ?_, h.hw, ?_, ?_⟩, ?_, ?_, rfl, rfl⟩
        · intro e; cases e
        · intro b e; cases e; exact h.hw
        · simp
        · intro e; rw [hb] at e; cases e
        · have := h.heap
          simp only [release, hb, h0] at this ⊢
          simp only [if_true, List.nil_append, reduceCtorEq, not_false_eq_true, ne_eq, List.cons_append] at this ⊢
          refine List.perm_append_comm.trans ?_
          exact List.Perm.cons _ this
        · simp [view, past, rdBuf, wrBuf, h0, hz]
        · simp
      · exact ⟨h, rfl, by simp, rfl, rfl⟩
  · rename_i h0
    exact ⟨h, rfl, fun _ => h0, rfl, rfl⟩

theorem inv_ensureWr {s : Str} (h : Inv s) (hb : s.buffered = true) (ok : Bool) :
    Inv (ensureWr s ok).2 ∧ view (ensureWr s ok).2 = view s ∧ ((ensureWr s ok).1 = true → (ensureWr s ok).2.wrAt ≠ none) := by
  unfold ensureWr
  split
  · rename_i w0
    have hz := h.wr0 w0
    split
    · rename_i r0
      refine ⟨⟨h.flt, h.room, h.cap, h.rd0, h.rdc, ?_, h.wrc, ?_, h.hr, ?_, ?_, ?_⟩, ?_, ?_⟩
      · intro e; cases e
      · intro b e; rw [r0] at e; cases e
      · simp
      · intro e; rw [hb] at e; cases e
      · refine h.heap.trans ?_; simp [release, hb, r0, w0]
      · simp [view, past, rdBuf, wrBuf, r0, w0, hz]
      · simp
    · rename_i r0
      split
      · refine ⟨⟨h.flt, h.room, h.cap, h.rd0, h.rdc, ?_, h.wrc, ?_, h.hr, ?_, ?_, ?_⟩, ?_, ?_⟩
        · intro e; cases e
        · intro b e e'; cases e'; exact h.hr e
        · simp
        · intro e; rw [hb] at e; cases e
        · have := h.heap
          simp only [release, hb, w0] at this ⊢
          simp only [if_true, List.append_nil, reduceCtorEq, not_false_eq_true, ne_eq] at this ⊢
          exact List.Perm.append_right _ this
        · simp [view, past, rdBuf, wrBuf, w0, hz]
        · simp
      · exact ⟨h, rfl, by simp⟩
  · rename_i h0
    exact ⟨h, rfl, fun _ => h0⟩

/-- loads in range change nothing -/
theorem load_in {s : Str} (h : Inv s) {b : Option Blk} {o n : Nat} (hn : b = none → n = 0) (hi : o + n ≤ s.cap) : (load s b o n).2 = s := by
  have : inside s b o n = true := by
    unfold inside
    cases b with
    | none => simp [hn rfl]
    | some b => simp [size_eq h b, hi]
  have hf := h.flt
  simp only [load, this, hf, Bool.not_true, Bool.or_false]
  cases s; simp only at hf; rw [hf]

theorem takeRd_spec {s : Str} (h : Inv s) (n : Nat) :
    Inv (takeRd s n).2 ∧ (takeRd s n).1 = (rdBuf s).take n ∧ view (takeRd s n).2 = (past s ++ (rdBuf s).take n, (rdBuf s).drop n, wrBuf s, s.buffered) := by
  unfold takeRd
  dsimp only
  have hle : (if s.rdLen < n then s.rdLen else n) ≤ s.rdLen := by split <;> omega
  have hmin : ∀ l : List UInt8, l.length = s.rdLen → l.take (if s.rdLen < n then s.rdLen else n) = l.take n ∧ l.drop (if s.rdLen < n then s.rdLen else n) = l.drop n := by
    intro l hl
    split
    · rw [List.take_of_length_le (by omega), List.take_of_length_le (by omega), List.drop_of_length_le (by omega), List.drop_of_length_le (by omega)]; exact ⟨rfl, rfl⟩
    · exact ⟨rfl, rfl⟩
  generalize (if s.rdLen < n then s.rdLen else n) = k at hle hmin
  have hc := h.rdc
  rw [load_in h (fun e => by have := h.rd0 e; omega) (by omega)]
  refine ⟨⟨h.flt, h.room, h.cap, ?_, ?_, h.wr0, h.wrc, h.ne, h.hr, h.hw, h.unb, h.heap⟩, ?_, ?_⟩
  · intro e; have := h.rd0 e; dsimp only; omega
  · dsimp only; omega
  · cases hr : s.rdAt with
    | none => simp [load, rdBuf, hr]
    | some b =>
      have hl : (rdBuf s).length = s.rdLen := by simp [rdBuf, hr]
      rw [← (hmin _ hl).1]
      simp only [load, rdBuf, hr]
      rw [cells_take _ _ _ _ hle]
  · cases hr : s.rdAt with
    | none => simp [view, rdBuf, past, wrBuf, hr]
    | some b =>
      have hl : (rdBuf s).length = s.rdLen := by simp [rdBuf, hr]
      rw [← (hmin _ hl).1, ← (hmin _ hl).2]
      simp only [view, rdBuf, past, wrBuf, hr]
      rw [cells_take _ _ _ _ hle, cells_drop _ _ _ _ hle, cells_add, Nat.zero_add]

/-- filling the buffer -/
theorem fill_spec {s : Str} (h : Inv s) {bs : List UInt8} (hb : s.rdAt ≠ none) (hl : bs.length ≤ s.cap) :
    Inv { store s s.rdAt 0 bs with rdLen := bs.length, rdPos := 0 } ∧ view { store s s.rdAt 0 bs with rdLen := bs.length, rdPos := 0 } = ([], bs, wrBuf s, s.buffered) := by
  obtain ⟨b, hr⟩ : ∃ b, s.rdAt = some b := by cases e : s.rdAt with | none => exact absurd e hb | some b => exact ⟨b, rfl⟩
  have hin : inside s (some b) 0 bs.length = true := by simp [inside, size_eq h b, hl]
  refine ⟨⟨?_, h.room, h.cap, ?_, ?_, h.wr0, h.wrc, h.ne, h.hr, h.hw, h.unb, h.heap⟩, ?_⟩
  · simp [store, hr, hin, h.flt]
  · intro e; exact absurd e hb
  · dsimp only; simpa [store] using hl
  · have hw : ∀ b', s.wrAt = some b' → b' ≠ b := fun b' e e' => h.ne b hr (by rw [e, e'])
    simp only [view, past, rdBuf, wrBuf, store, hr, cells_zero, if_true, cells_put_eq]
    cases e : s.wrAt with
    | none => rfl
    | some b' => simp only [if_neg (hw b' e)]

theorem copyWr_spec {s : Str} (h : Inv s) (hb : s.wrAt ≠ none) (d : List UInt8) :
    Inv (copyWr s d).2 ∧ view (copyWr s d).2 = (past s, rdBuf s, wrBuf s ++ d.take (copyWr s d).1, s.buffered) ∧ (copyWr s d).1 ≤ d.length ∧ (copyWr s d).2.wrAt ≠ none ∧ (s.wrLen < s.cap → d ≠ [] → 0 < (copyWr s d).1) := by
  obtain ⟨b, hr⟩ : ∃ b, s.wrAt = some b := by cases e : s.wrAt with | none => exact absurd e hb | some b => exact ⟨b, rfl⟩
  unfold copyWr
  dsimp only
  have hk : (if s.cap - s.wrLen < d.length then s.cap - s.wrLen else d.length) ≤ d.length ∧ s.wrLen + (if s.cap - s.wrLen < d.length then s.cap - s.wrLen else d.length) ≤ s.cap := by
    have := h.wrc; split <;> omega
  have hpos : s.wrLen < s.cap → d ≠ [] → 0 < (if s.cap - s.wrLen < d.length then s.cap - s.wrLen else d.length) := by
    intro h1 h2; have := List.length_pos_iff.mpr h2; split <;> omega
  generalize (if s.cap - s.wrLen < d.length then s.cap - s.wrLen else d.length) = k at hk hpos
  have hlen : (d.take k).length = k := by rw [List.length_take]; omega
  have hin : inside s (some b) s.wrLen (d.take k).length = true := by rw [hlen]; simp [inside, size_eq h b, hk.2]
  refine ⟨⟨?_, h.room, h.cap, h.rd0, h.rdc, ?_, ?_, h.ne, h.hr, h.hw, h.unb, h.heap⟩, ?_, hk.1, hb, hpos⟩
  · simp only [store, hr, hin, h.flt]; rfl
  · intro e; exact absurd e hb
  · exact hk.2
  · have hw : ∀ b', s.rdAt = some b' → b' ≠ b := fun b' e e' => h.ne b' e (by rw [hr, e'])
    simp only [view, past, rdBuf, wrBuf, store, hr, if_true]
    rw [cells_add, cells_put_before _ _ _ _ _ (by omega), Nat.zero_add]
    have := cells_put_eq (s.mem b) s.wrLen (d.take k)
    rw [hlen] at this
    rw [this]
    cases e : s.rdAt with
    | none => rfl
    | some b' => simp only [if_neg (hw b' e)]

/-- moving the rest to the front after a partial write -/
theorem move_spec {s : Str} (h : Inv s) {k : Nat} (hk : k ≤ s.wrLen) :
    Inv { store (load s s.wrAt k (s.wrLen - k)).2 s.wrAt 0 (load s s.wrAt k (s.wrLen - k)).1 with wrLen := s.wrLen - k } ∧
    view { store (load s s.wrAt k (s.wrLen - k)).2 s.wrAt 0 (load s s.wrAt k (s.wrLen - k)).1 with wrLen := s.wrLen - k } = (past s, rdBuf s, (wrBuf s).drop k, s.buffered) := by
  have hc := h.wrc
  rw [load_in h (fun e => by have := h.wr0 e; omega) (by omega)]
  cases hr : s.wrAt with
  | none =>
    have hz := h.wr0 hr
    refine ⟨⟨?_, h.room, h.cap, h.rd0, h.rdc, ?_, ?_, ?_, h.hr, ?_, h.unb, h.heap⟩, ?_⟩
    · simp [store, load, inside, h.flt]
    · intro _; dsimp only; omega
    · dsimp only [store]; omega
    · intro b e; dsimp only [store]; rw [hr]; simp
    · dsimp only [store]; rw [hr]; simp
    · simp [view, past, rdBuf, wrBuf, store, hr]
  | some b =>
    have hl : (load s (some b) k (s.wrLen - k)).1 = cells (s.mem b) k (s.wrLen - k) := rfl
    have hin : inside s (some b) 0 (cells (s.mem b) k (s.wrLen - k)).length = true := by simp [inside, size_eq h b]; omega
    rw [hl]
    refine ⟨⟨?_, h.room, h.cap, h.rd0, h.rdc, ?_, ?_, ?_, h.hr, ?_, h.unb, h.heap⟩, ?_⟩
    · simp only [store, hin, h.flt]; rfl
    · intro e; dsimp only [store] at e; rw [hr] at e; cases e
    · dsimp only [store]; omega
    · exact h.ne
    · exact h.hw
    · have hw : ∀ b', s.rdAt = some b' → b' ≠ b := fun b' e e' => h.ne b' e (by rw [hr, e'])
      simp only [view, past, rdBuf, wrBuf, store, hr, if_true]
      have := cells_put_eq (s.mem b) 0 (cells (s.mem b) k (s.wrLen - k))
      rw [cells_length] at this
      rw [this, cells_drop _ _ _ _ hk, Nat.zero_add]
      cases e : s.rdAt with
      | none => rfl
      | some b' => simp only [if_neg (hw b' e)]

theorem empty_spec {s : Str} (h : Inv s) : Inv { s with wrLen := 0 } ∧ view { s with wrLen := 0 } = (past s, rdBuf s, [], s.buffered) := by
  refine ⟨⟨h.flt, h.room, h.cap, h.rd0, h.rdc, fun _ => rfl, Nat.zero_le _, h.ne, h.hr, h.hw, h.unb, h.heap⟩, ?_⟩
  simp only [view, past, rdBuf, wrBuf, cells_zero]
  cases s.wrAt <;> rfl

end Neco.Io
