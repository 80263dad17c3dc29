import Verif.Model.Out
import Mathlib.Tactic.Basic

/-! # C85: a broken standard output ends the program, and nothing else does -/

namespace Neco.Out
open Neco.Err Neco.Io

/-- the same call where no process ends: `Verif.Model.Io` -/
def lift (x : Option (Res × W)) : Option End := x.map (fun p => .ended p.1 p.2)

theorem loop_same {fd dl : Int} : ∀ {ts : List (Turn SysW)} {d : List UInt8} {n : Nat} {w : W}, (∀ t ∈ ts, broken fd t.sys = false) →
    writeLoop fd dl ts d n w = lift (Io.writeLoop dl ts d n w)
  | [], _, _, _, _ => rfl
  | t :: ts, d, n, w, h => by
    have ht := h t List.mem_cons_self
    have hs : ∀ t ∈ ts, broken fd t.sys = false := fun t h' => h t (List.mem_cons_of_mem _ h')
    unfold writeLoop Io.writeLoop
    dsimp only
    by_cases hc : (checkdl w dl t.now).1 ≠ OK
    · rw [if_pos hc, if_pos hc]; rfl
    rw [if_neg hc, if_neg hc, ht, if_neg (by decide)]
    cases t.sys with
    | err e =>
      dsimp only
      split
      · split
        · rfl
        · split
          · rfl
          · exact loop_same hs
      · split <;> rfl
    | acc k =>
      dsimp only
      split
      · rfl
      · split
        · rfl
        · exact loop_same hs
    | early k =>
      dsimp only
      split
      · rfl
      · split
        · rfl
        · exact loop_same hs

theorem write_same {fd dl : Int} {ts : List (Turn SysW)} {d : List UInt8} {w : W} (h : ∀ t ∈ ts, broken fd t.sys = false) :
    write fd d dl ts w = lift (Io.write d dl ts w) := by
  unfold write Io.write
  rw [loop_same h]
  cases Io.writeLoop dl ts d 0 w with
  | none => rfl
  | some p =>
    obtain ⟨r, w'⟩ := p
    dsimp only [lift, Option.map]
    cases (guardA r w').1 <;> rfl

/-- C85. Writing to any descriptor but the two standard ones never ends the process: the call does what
`Verif.Model.Io` says, also when the reader is gone. -/
theorem C85_others {fd dl : Int} {ts : List (Turn SysW)} {d : List UInt8} {w : W} (h : fd ≠ 1 ∧ fd ≠ 2) :
    write fd d dl ts w = lift (Io.write d dl ts w) := by
  refine write_same (fun t _ => ?_)
  cases hs : t.sys <;> simp [broken, h.1, h.2]

/-- C85. So does a write to a standard descriptor whose reader is there. -/
theorem C85_sound {fd dl : Int} {ts : List (Turn SysW)} {d : List UInt8} {w : W} (h : ∀ t ∈ ts, t.sys ≠ .err 32) :
    write fd d dl ts w = lift (Io.write d dl ts w) := by
  refine write_same (fun t ht => ?_)
  have := h t ht
  cases hs : t.sys with
  | err e =>
    simp only [broken, decide_eq_false_iff_not]
    rintro ⟨rfl, _⟩
    exact this hs
  | acc k => rfl
  | early k => rfl

theorem checkdl_keep (w : W) (dl now : Int) : (checkdl w dl now).2.out = w.out ∧ (checkdl w dl now).2.errno = w.errno ∧ (checkdl w dl now).2.async = w.async := by
  unfold checkdl
  repeat' split
  all_goals exact ⟨rfl, rfl, rfl⟩

theorem loop_died {fd dl : Int} : ∀ {ts : List (Turn SysW)} {d : List UInt8} {n : Nat} {w w' : W} {c : Int}, writeLoop fd dl ts d n w = some (.died c w') →
    c = 160 ∧ (fd = 1 ∨ fd = 2) ∧ (∃ pre t post, ts = pre ++ t :: post ∧ t.sys = .err 32 ∧ Io.writeLoop dl pre d n w = none) ∧
      ((∀ t ∈ ts, ∀ k, t.sys ≠ .early k) → ∃ k, w'.out = w.out ++ d.take k)
  | [], _, _, _, _, _, h => by cases h
  | t :: ts, d, n, w, w', c, h => by
    unfold writeLoop at h
    dsimp only at h
    obtain ⟨e1, _, _⟩ := checkdl_keep w dl t.now
    by_cases hc : (checkdl w dl t.now).1 ≠ OK
    · rw [if_pos hc] at h; cases h
    rw [if_neg hc] at h
    by_cases hb : broken fd t.sys = true
    · rw [if_pos hb] at h
      cases h
      cases hs : t.sys with
      | err e =>
        rw [hs] at hb
        simp only [broken, decide_eq_true_eq] at hb
        obtain ⟨rfl, hf⟩ := hb
        exact ⟨rfl, hf, ⟨[], t, ts, rfl, hs, rfl⟩, fun _ => ⟨0, by simp [e1]⟩⟩
      | acc k => rw [hs] at hb; cases hb
      | early k => rw [hs] at hb; cases hb
    rw [if_neg hb] at h
    cases hs : t.sys with
    | err e =>
      rw [hs] at h; dsimp only at h
      split at h
      · rename_i h1
        split at h
        · cases h
        rename_i h2
        split at h
        · cases h
        rename_i h3
        obtain ⟨a, b, ⟨pre, t', post, rfl, ht, hp⟩, o⟩ := loop_died h
        refine ⟨a, b, ⟨t :: pre, t', post, rfl, ht, ?_⟩, fun hn => ?_⟩
        · unfold Io.writeLoop
          dsimp only
          rw [if_neg hc, hs]
          dsimp only
          rw [if_pos h1, if_neg h2, if_neg h3]
          exact hp
        · obtain ⟨k, hk⟩ := o (fun t h => hn t (List.mem_cons_of_mem _ h))
          exact ⟨k, by rw [hk]; simp [pass, e1]⟩
      · split at h <;> cases h
    | acc k =>
      rw [hs] at h; dsimp only at h
      split at h
      · cases h
      rename_i h2
      split at h
      · cases h
      rename_i h3
      obtain ⟨a, b, ⟨pre, t', post, rfl, ht, hp⟩, o⟩ := loop_died h
      refine ⟨a, b, ⟨t :: pre, t', post, rfl, ht, ?_⟩, fun hn => ?_⟩
      · unfold Io.writeLoop
        dsimp only
        rw [if_neg hc, hs]
        dsimp only
        rw [if_neg h2, if_neg h3]
        exact hp
      · obtain ⟨j, hj⟩ := o (fun t h => hn t (List.mem_cons_of_mem _ h))
        refine ⟨k + j, ?_⟩
        rw [hj]; simp [pass, e1, List.take_add]
    | early k =>
      rw [hs] at h; dsimp only at h
      split at h
      · cases h
      rename_i h2
      split at h
      · cases h
      rename_i h3
      obtain ⟨a, b, ⟨pre, t', post, rfl, ht, hp⟩, o⟩ := loop_died h
      refine ⟨a, b, ⟨t :: pre, t', post, rfl, ht, ?_⟩, fun hn => ?_⟩
      · unfold Io.writeLoop
        dsimp only
        rw [if_neg hc, hs]
        dsimp only
        rw [if_neg h2, if_neg h3]
        exact hp
      · exact absurd hs (hn t List.mem_cons_self k)

theorem write_died {fd dl : Int} {ts : List (Turn SysW)} {d : List UInt8} {w w' : W} {c : Int} :
    write fd d dl ts w = some (.died c w') ↔ writeLoop fd dl ts d 0 w = some (.died c w') := by
  unfold write
  split
  · rename_i h; rw [h]
  · rename_i h; rw [h]
  · rename_i h
    rw [h]
    dsimp only
    split <;> simp

theorem io_none {dl : Int} {ts : List (Turn SysW)} {d : List UInt8} {w : W} : Io.write d dl ts w = none ↔ Io.writeLoop dl ts d 0 w = none := by
  unfold Io.write
  split
  · rename_i h; simp [h]
  · rename_i h
    rw [h]
    dsimp only
    split <;> simp

/-- C85. A write that ends the process is one to standard output or standard error; the status is 160; the call was
still going on when the system said that the pipe is broken; and what was written before is a beginning of the
data, in order. -/
theorem C85_dies {fd dl : Int} {ts : List (Turn SysW)} {d : List UInt8} {w w' : W} {c : Int} (h : write fd d dl ts w = some (.died c w')) :
    c = 160 ∧ (fd = 1 ∨ fd = 2) ∧ (∃ pre t post, ts = pre ++ t :: post ∧ t.sys = .err 32 ∧ Io.write d dl pre w = none) ∧
      ((∀ t ∈ ts, ∀ k, t.sys ≠ .early k) → ∃ k, w'.out = w.out ++ d.take k) := by
  obtain ⟨a, b, ⟨pre, t, post, h1, h2, h3⟩, o⟩ := loop_died (write_died.1 h)
  exact ⟨a, b, ⟨pre, t, post, h1, h2, io_none.2 h3⟩, o⟩

/-- the same round, in which the descriptor takes nothing and nobody cancels -/
def full (t : Turn SysW) : Turn SysW := { t with sys := .acc 0, cancel := false }

theorem loop_kills {fd dl : Int} {t0 : Turn SysW} {post : List (Turn SysW)} (hf : fd = 1 ∨ fd = 2) (h0 : t0.sys = .err 32) :
    ∀ {pre : List (Turn SysW)} {d : List UInt8} {n : Nat} {w : W}, (∀ t ∈ pre, t.sys ≠ .err 32) → Io.writeLoop dl (pre ++ [full t0]) d n w = none →
      ∃ w', writeLoop fd dl (pre ++ t0 :: post) d n w = some (.died 160 w')
  | [], d, n, w, _, hp => by
    simp only [List.nil_append] at hp ⊢
    unfold Io.writeLoop at hp
    unfold writeLoop
    dsimp only [full] at hp ⊢
    by_cases hc : (checkdl w dl t0.now).1 ≠ OK
    · rw [if_pos hc] at hp; cases hp
    rw [if_neg hc, h0, if_pos (by simp [broken, sysEPIPE, hf])]
    exact ⟨_, rfl⟩
  | t :: pre, d, n, w, hn, hp => by
    have hn' : ∀ t ∈ pre, t.sys ≠ .err 32 := fun t h => hn t (List.mem_cons_of_mem _ h)
    have ht := hn t List.mem_cons_self
    rw [List.cons_append] at hp ⊢
    unfold Io.writeLoop at hp
    unfold writeLoop
    dsimp only at hp ⊢
    by_cases hc : (checkdl w dl t.now).1 ≠ OK
    · rw [if_pos hc] at hp; cases hp
    rw [if_neg hc] at hp ⊢
    have hb : ¬ broken fd t.sys = true := by
      cases hs : t.sys with
      | err e =>
        simp only [broken, decide_eq_true_eq]
        rintro ⟨rfl, _⟩; exact ht hs
      | acc k => simp [broken]
      | early k => simp [broken]
    rw [if_neg hb]
    cases hs : t.sys with
    | err e =>
      rw [hs] at hp; dsimp only at hp ⊢
      split at hp
      · rename_i h1
        split at hp
        · cases hp
        rename_i h2
        split at hp
        · cases hp
        rename_i h3
        rw [if_pos h1, if_neg h2, if_neg h3]
        exact loop_kills hf h0 hn' hp
      · split at hp <;> cases hp
    | acc k =>
      rw [hs] at hp; dsimp only at hp ⊢
      split at hp
      · cases hp
      rename_i h2
      split at hp
      · cases hp
      rename_i h3
      rw [if_neg h2, if_neg h3]
      exact loop_kills hf h0 hn' hp
    | early k =>
      rw [hs] at hp; dsimp only at hp ⊢
      split at hp
      · cases hp
      rename_i h2
      split at hp
      · cases hp
      rename_i h3
      rw [if_neg h2, if_neg h3]
      exact loop_kills hf h0 hn' hp

/-- C85. Whenever a write to standard output or standard error comes to a round in which the system says that the pipe is
broken, the process ends then, with status 160. That the call comes to that round is said by: it would go on if the
descriptor took nothing in it. -/
theorem C85_kills {fd dl : Int} {pre post : List (Turn SysW)} {t : Turn SysW} {d : List UInt8} {w : W} (hf : fd = 1 ∨ fd = 2)
    (ht : t.sys = .err 32) (hn : ∀ t ∈ pre, t.sys ≠ .err 32) (hp : Io.write d dl (pre ++ [full t]) w = none) :
    ∃ w', write fd d dl (pre ++ t :: post) w = some (.died 160 w') := by
  obtain ⟨w', h⟩ := loop_kills (post := post) hf ht hn (io_none.1 hp)
  exact ⟨w', write_died.2 h⟩

theorem loop_silent {fd dl : Int} (hf : fd = 1 ∨ fd = 2) : ∀ {ts : List (Turn SysW)} {d : List UInt8} {n : Nat} {w w' : W} {r : Res}, w.errno ≠ 32 →
    writeLoop fd dl ts d n w = some (.ended r w') → w'.errno ≠ 32
  | [], _, _, _, _, _, _, h => by cases h
  | t :: ts, d, n, w, w', r, he, h => by
    unfold writeLoop at h
    dsimp only at h
    obtain ⟨_, e2, _⟩ := checkdl_keep w dl t.now
    by_cases hc : (checkdl w dl t.now).1 ≠ OK
    · rw [if_pos hc] at h; cases h
      dsimp only [dlErrno]; split <;> decide
    rw [if_neg hc] at h
    by_cases hb : broken fd t.sys = true
    · rw [if_pos hb] at h; cases h
    rw [if_neg hb] at h
    cases hs : t.sys with
    | err e =>
      rw [hs] at h hb; dsimp only at h
      have hne : e ≠ 32 := by rintro rfl; exact hb (by simp [broken, sysEPIPE, hf])
      split at h
      · split at h
        · cases h; exact hne
        split at h
        · cases h; exact hne
        exact loop_silent hf (by exact hne) h
      · split at h <;> (cases h; exact hne)
    | acc k =>
      rw [hs] at h; dsimp only at h
      split at h
      · cases h; dsimp only; rw [e2]; exact he
      split at h
      · cases h; dsimp only [pass]; rw [e2]; exact he
      exact loop_silent hf (by dsimp only [pass]; rw [e2]; exact he) h
    | early k =>
      rw [hs] at h; dsimp only at h
      split at h
      · cases h; dsimp only; rw [e2]; exact he
      split at h
      · cases h; dsimp only [pass]; rw [e2]; exact he
      exact loop_silent hf (by dsimp only [pass]; rw [e2]; exact he) h

/-- C85. So a write to standard output or standard error that returns never reports a broken pipe. -/
theorem C85_silent {fd dl : Int} {ts : List (Turn SysW)} {d : List UInt8} {w w' : W} {r : Res} (hf : fd = 1 ∨ fd = 2) (he : w.errno ≠ 32)
    (h : write fd d dl ts w = some (.ended r w')) : w'.errno ≠ 32 := by
  unfold write at h
  split at h
  · cases h
  · cases h
  · rename_i r0 w0 h0
    have := loop_silent hf he h0
    have hg : (guardA r0 w0).2.errno = w0.errno := by
      unfold guardA; split <;> (try dsimp only) <;> (repeat' split) <;> rfl
    dsimp only at h
    split at h
    · cases h; rw [hg]; exact this
    · cases h
      split
      · dsimp only; rw [hg]; exact this
      · rw [hg]; exact this

/-- a write of three bytes to standard output: one is taken, then the reader is gone -/
example : ∃ w', write 1 [1, 2, 3] MAX [{ sys := .acc 1 }, { sys := .err 11 }, { sys := .err 32 }] {} = some (.died 160 w') ∧ w'.out = [1] := ⟨_, rfl, rfl⟩
/-- the same to descriptor 5: it returns 1 -/
example : ∃ w', write 5 [1, 2, 3] MAX [{ sys := .acc 1 }, { sys := .err 11 }, { sys := .err 32 }] {} = some (.ended (.ret 1) w') ∧ w'.errno = 32 := ⟨_, rfl, rfl⟩
example : Io.write [1, 2, 3] MAX ([{ sys := .acc 1 }, { sys := .err 11 }] ++ [full { sys := .err 32 }]) {} = none := rfl

end Neco.Out
