import Verif.Props.Stream

/-! # C57: a coroutine that is canceled while it waits in an I/O call

`calm t` is the round `t` of a call without the cancelation.  That a call which is given the rounds up to `calm t` has not returned says that it
waits in that round. -/

namespace Neco.Io
open Neco.Err

/-- the same round, in which nobody cancels -/
def calm {σ : Type} (t : Turn σ) : Turn σ := { t with cancel := false }

theorem readDl_waits {cnt : Nat} {dl : Int} {t0 : Turn SysR} {post : List (Turn SysR)} (h0 : t0.cancel = true) :
    ∀ {pre : List (Turn SysR)} {w w' : W} {r : Res} {bs : List UInt8}, readDl cnt dl (pre ++ [calm t0]) w = none →
      readDl cnt dl (pre ++ t0 :: post) w = some (r, bs, w') →
      (w.async = true → r = .exit) ∧ (r = .exit ∨ (r = .ret (-1) ∧ w'.errno = sysECANCELED)) ∧ bs = [] ∧ w'.inp = w.inp
  | [], w, w', r, bs, hp, h => by
    simp only [List.nil_append] at hp h
    unfold readDl at hp h
    dsimp only [calm] at hp h
    by_cases hc : (checkdl w dl t0.now).1 ≠ OK
    · rw [if_pos hc] at hp; cases hp
    rw [if_neg hc] at hp h
    obtain ⟨e1, _, _, e4, _⟩ := checkdl_w w dl t0.now
    split at h
    · cases h; exact ⟨fun _ => rfl, .inl rfl, rfl, e1⟩
    rename_i hn
    have ha : w.async ≠ true := by
      intro ha
      apply hn
      simp [pass, h0, e4, ha]
    refine ⟨fun h => absurd h ha, ?_⟩
    split at hp
    · cases hp
    split at h
    · rename_i e he
      rw [he] at hp
      dsimp only at hp
      split at h
      · cases post with
        | nil => simp [readDl] at h
        | cons t1 post =>
          unfold readDl at h
          dsimp only at h
          rw [checkdl_canceled (by simp [pass, h0])] at h
          rw [if_pos (by show CANCELED ≠ OK; decide)] at h
          cases h
          exact ⟨.inr ⟨rfl, rfl⟩, rfl, e1⟩
      · rename_i hx
        rw [if_neg hx] at hp
        cases hp
    · rename_i he
      rw [he] at hp
      cases hp
  | t :: pre, w, w', r, bs, hp, h => by
    rw [List.cons_append] at hp h
    unfold readDl at hp h
    dsimp only at hp h
    by_cases hc : (checkdl w dl t.now).1 ≠ OK
    · rw [if_pos hc] at hp; cases hp
    rw [if_neg hc] at hp h
    obtain ⟨e1, _, _, e4, _⟩ := checkdl_w w dl t.now
    split at h
    · rename_i hx
      rw [if_pos hx] at hp
      cases hp
    · rename_i hx
      rw [if_neg hx] at hp
      split at h
      · rename_i e he
        rw [he] at hp
        dsimp only at hp
        split at h
        · rename_i hy
          rw [if_pos hy] at hp
          have := readDl_waits h0 hp h
          rw [← e1, ← e4]
          exact this
        · rename_i hy
          rw [if_neg hy] at hp
          cases hp
      · rename_i he
        rw [he] at hp
        cases hp

theorem read_waits {cnt : Nat} {dl : Int} {t0 : Turn SysR} {pre post : List (Turn SysR)} {w w' : W} {r : Res} {bs : List UInt8} (h0 : t0.cancel = true)
    (hp : read cnt dl (pre ++ [calm t0]) w = none) (h : read cnt dl (pre ++ t0 :: post) w = some (r, bs, w')) :
    (w.async = true → r = .exit) ∧ (r = .exit ∨ (r = .ret (-1) ∧ w'.errno = sysECANCELED)) ∧ bs = [] ∧ w'.inp = w.inp := by
  unfold read at hp h
  split at hp
  · rename_i hq
    split at h
    · cases h
    · rename_i r0 bs0 w0 h1
      cases h
      obtain ⟨g1, g2, g3, g4⟩ := readDl_waits h0 hq h1
      obtain ⟨k1, _, _, k4, _⟩ := guardA_w r0 w0
      refine ⟨fun ha => by rw [g1 ha]; rfl, ?_, g3, k1.trans g4⟩
      rcases g2 with rfl | ⟨rfl, e⟩
      · exact .inl rfl
      · cases hg : (guardA (.ret (-1)) w0).1 with
        | exit => exact .inl rfl
        | ret m =>
          have := guardA_ret hg
          cases this
          exact .inr ⟨rfl, k4.trans e⟩
  · cases hp

/-- **C57** A coroutine that is canceled while it waits in `neco_read` is told so and nothing is read; with the asynchronous cancel type it does not
return from the call. -/
theorem C57_read_waits {cnt : Nat} {dl : Int} {t0 : Turn SysR} {pre post : List (Turn SysR)} {w w' : W} {r : Res} {bs : List UInt8} (h0 : t0.cancel = true)
    (hp : read cnt dl (pre ++ [calm t0]) w = none) (h : read cnt dl (pre ++ t0 :: post) w = some (r, bs, w')) :
    Tells r w' ∧ (w.async = true → r = .exit) ∧ bs = [] ∧ w'.inp = w.inp := by
  obtain ⟨g1, g2, g3, g4⟩ := read_waits h0 hp h
  refine ⟨?_, g1, g3, g4⟩
  rcases g2 with g | g
  · exact .inl g
  · exact .inr (.inr g)

theorem writeLoop_waits {dl : Int} {t0 : Turn SysW} {post : List (Turn SysW)} (h0 : t0.cancel = true) :
    ∀ {pre : List (Turn SysW)} {d : List UInt8} {n : Nat} {w w' : W} {r : Res}, writeLoop dl (pre ++ [calm t0]) d n w = none →
      writeLoop dl (pre ++ t0 :: post) d n w = some (r, w') →
      (w.async = true → r = .exit) ∧ (r = .exit ∨ (r = .ret (-1) ∧ w'.errno = sysECANCELED))
  | [], d, n, w, w', r, hp, h => by
    simp only [List.nil_append] at hp h
    unfold writeLoop at hp h
    dsimp only [calm] at hp h
    by_cases hc : (checkdl w dl t0.now).1 ≠ OK
    · rw [if_pos hc] at hp; cases hp
    rw [if_neg hc] at hp h
    obtain ⟨e1, _, _, e4, _⟩ := checkdl_w w dl t0.now
    have again : ∀ {d : List UInt8} {n : Nat} {w1 : W}, w1.canceled = true → writeLoop dl post d n w1 = some (r, w') → r = .ret (-1) ∧ w'.errno = sysECANCELED := by
      intro d n w1 hw h
      cases post with
      | nil => simp [writeLoop] at h
      | cons t1 post =>
        unfold writeLoop at h
        dsimp only at h
        rw [checkdl_canceled hw, if_pos (by show CANCELED ≠ OK; decide)] at h
        cases h
        exact ⟨rfl, rfl⟩
    split at h
    · rename_i e he
      rw [he] at hp
      dsimp only at hp
      split at h
      · rename_i hx
        rw [if_pos hx] at hp
        split at h
        · cases h; exact ⟨fun _ => rfl, .inl rfl⟩
        · rename_i hn
          refine ⟨fun ha => absurd ?_ hn, ?_⟩
          · simp [pass, h0, e4, ha]
          split at hp
          · cases hp
          split at h
          · rename_i hd
            rw [if_pos hd] at hp
            cases hp
          · exact .inr (again (by simp [pass, h0]) h)
      · rename_i hx
        rw [if_neg hx] at hp
        split at hp <;> cases hp
    · rename_i k he
      rw [he] at hp
      dsimp only at hp
      split at h
      · rename_i hd
        rw [if_pos hd] at hp
        cases hp
      · split at h
        · cases h; exact ⟨fun _ => rfl, .inl rfl⟩
        · rename_i hn
          refine ⟨fun ha => absurd ?_ hn, ?_⟩
          · simp [pass, h0, e4, ha]
          exact .inr (again (by simp [pass, h0]) h)
    · rename_i k he
      rw [he] at hp
      dsimp only at hp
      split at h
      · rename_i hd
        rw [if_pos hd] at hp
        cases hp
      · split at h
        · cases h; exact ⟨fun _ => rfl, .inl rfl⟩
        · rename_i hn
          refine ⟨fun ha => absurd ?_ hn, ?_⟩
          · simp [pass, h0, e4, ha]
          exact .inr (again (by simp [pass, h0]) h)
  | t :: pre, d, n, w, w', r, hp, h => by
    rw [List.cons_append] at hp h
    unfold writeLoop at hp h
    dsimp only at hp h
    by_cases hc : (checkdl w dl t.now).1 ≠ OK
    · rw [if_pos hc] at hp; cases hp
    rw [if_neg hc] at hp h
    obtain ⟨_, _, _, e4, _⟩ := checkdl_w w dl t.now
    rw [← e4]
    split at h
    · rename_i e he
      rw [he] at hp
      dsimp only at hp
      split at h
      · rename_i hx
        rw [if_pos hx] at hp
        split at h
        · rename_i hn
          rw [if_pos hn] at hp
          cases hp
        · rename_i hn
          rw [if_neg hn] at hp
          split at h
          · rename_i hd
            rw [if_pos hd] at hp
            cases hp
          · rename_i hd
            rw [if_neg hd] at hp
            have := writeLoop_waits h0 hp h
            exact this
      · rename_i hx
        rw [if_neg hx] at hp
        split at hp <;> cases hp
    · rename_i k he
      rw [he] at hp
      dsimp only at hp
      split at h
      · rename_i hd
        rw [if_pos hd] at hp
        cases hp
      · rename_i hd
        rw [if_neg hd] at hp
        split at h
        · rename_i hn
          rw [if_pos hn] at hp
          cases hp
        · rename_i hn
          rw [if_neg hn] at hp
          have := writeLoop_waits h0 hp h
          exact this
    · rename_i k he
      rw [he] at hp
      dsimp only at hp
      split at h
      · rename_i hd
        rw [if_pos hd] at hp
        cases hp
      · rename_i hd
        rw [if_neg hd] at hp
        split at h
        · rename_i hn
          rw [if_pos hn] at hp
          cases hp
        · rename_i hn
          rw [if_neg hn] at hp
          have := writeLoop_waits h0 hp h
          exact this

theorem write_waits {d : List UInt8} {dl : Int} {t0 : Turn SysW} {pre post : List (Turn SysW)} {w w' : W} {r : Res} (h0 : t0.cancel = true)
    (hp : write d dl (pre ++ [calm t0]) w = none) (h : write d dl (pre ++ t0 :: post) w = some (r, w')) :
    (w.async = true → r = .exit) ∧ (r = .exit ∨ (r = .ret (-1) ∧ w'.errno = sysECANCELED)) := by
  unfold write at hp h
  split at hp
  · rename_i hq
    split at h
    · cases h
    · rename_i r0 w0 h1
      obtain ⟨g1, g2⟩ := writeLoop_waits h0 hq h1
      obtain ⟨_, _, _, k4, _⟩ := guardA_w r0 w0
      dsimp only at h
      split at h
      · cases h; exact ⟨fun _ => rfl, .inl rfl⟩
      · rename_i m hg
        cases h
        rcases g2 with rfl | ⟨rfl, e⟩
        · cases hg
        · have := guardA_ret hg
          cases this
          refine ⟨fun ha => (by cases g1 ha), .inr ⟨rfl, ?_⟩⟩
          rw [if_neg (by omega)]
          exact k4.trans e
  · dsimp only at hp
    split at hp <;> cases hp

/-- **C57** A coroutine that is canceled while it waits in `neco_write` is told so; with the asynchronous cancel type it does not return from the call. -/
theorem C57_write_waits {d : List UInt8} {dl : Int} {t0 : Turn SysW} {pre post : List (Turn SysW)} {w w' : W} {r : Res} (h0 : t0.cancel = true)
    (hp : write d dl (pre ++ [calm t0]) w = none) (h : write d dl (pre ++ t0 :: post) w = some (r, w')) : Tells r w' ∧ (w.async = true → r = .exit) := by
  obtain ⟨g1, g2⟩ := write_waits h0 hp h
  refine ⟨?_, g1⟩
  rcases g2 with g | g
  · exact .inl g
  · exact .inr (.inr g)

/-- **C57** The same for `neco_stream_read`. -/
theorem C57_stream_read_waits {s s' : S} {n : Nat} {dl : Int} {ok : Bool} {t0 : Turn SysR} {pre post : List (Turn SysR)} {r : Res} {bs : List UInt8} (h0 : t0.cancel = true)
    (hp : streamRead s n dl ok (pre ++ [calm t0]) = none) (h : streamRead s n dl ok (pre ++ t0 :: post) = some (r, bs, s')) :
    Tells r s'.w ∧ (s.w.async = true → r = .exit) ∧ bs = [] ∧ s'.w.inp = s.w.inp := by
  have key : ∀ r bs s', streamRead0 s n dl ok (pre ++ [calm t0]) = none → streamRead0 s n dl ok (pre ++ t0 :: post) = some (r, bs, s') →
      Tells r s'.w ∧ (s.w.async = true → r = .exit) ∧ bs = [] ∧ s'.w.inp = s.w.inp := by
    intro r bs s' hp h
    unfold streamRead0 at hp h
    split at h
    · rename_i hb
      rw [if_pos hb] at hp
      split at hp
      · rename_i hq
        split at h
        · cases h
        · rename_i h1
          cases h
          exact C57_read_waits h0 hq h1
      · cases hp
    · rename_i hb
      rw [if_neg hb] at hp
      dsimp only at hp h
      split at h
      · rename_i he
        rw [if_pos he] at hp
        cases hp
      · rename_i he
        rw [if_neg he] at hp
        split at h
        · rename_i hl
          rw [if_pos hl] at hp
          split at hp
          · rename_i hq
            split at h
            · cases h
            · rename_i h1
              cases h
              obtain ⟨_, _, _, g4⟩ := read_waits h0 hq h1
              exact ⟨.inl rfl, fun _ => rfl, rfl, g4⟩
            · rename_i m bs1 w1 h1
              obtain ⟨g1, g2, g3, g4⟩ := read_waits h0 hq h1
              rcases g2 with g | ⟨g, e⟩
              · cases g
              · cases g
                rw [if_pos rfl] at h
                cases h
                refine ⟨.inr (.inl ?_), fun ha => (by cases g1 ha), rfl, g4⟩
                rw [e]; rfl
          · cases hp
          · split at hp <;> cases hp
        · rename_i hl
          rw [if_neg hl] at hp
          cases hp
  unfold streamRead at hp h
  split at hp
  · rename_i hq
    split at h
    · cases h
    · rename_i r0 bs0 s0 h1
      obtain ⟨g1, g2, g3, g4⟩ := key _ _ _ hq h1
      dsimp only at h
      have hr : ¬ (r0 = .ret 0 ∧ n > 0 ∧ s0.w.lasterr = OK) := by
        rintro ⟨rfl, -⟩
        rcases g1 with g | g | g
        · cases g
        · cases g
        · cases g.1
      rw [if_neg hr] at h
      cases h
      refine ⟨g1.guardE, fun ha => by rw [g2 ha]; rfl, g3, ?_⟩
      cases r0 <;> exact g4
  · cases hp

/-- **C57** The same for `neco_stream_flush`. -/
theorem C57_flush_waits {s s' : S} {dl now : Int} {t0 : Turn SysW} {pre post : List (Turn SysW)} {r : Res} (h0 : t0.cancel = true)
    (hp : flush s dl now (pre ++ [calm t0]) = none) (h : flush s dl now (pre ++ t0 :: post) = some (r, s')) : Tells r s'.w ∧ (s.w.async = true → r = .exit) := by
  have key : ∀ r s', flush0 s dl now (pre ++ [calm t0]) = none → flush0 s dl now (pre ++ t0 :: post) = some (r, s') →
      Tells r s'.w ∧ (s.w.async = true → r = .exit) := by
    intro r s' hp h
    unfold flush0 at hp h
    split at h
    · rename_i hb
      rw [if_pos hb] at hp
      cases hp
    · rename_i hb
      rw [if_neg hb] at hp
      dsimp only at hp h
      split at hp
      · rename_i hq
        split at h
        · cases h
        · cases h
          exact ⟨.inl rfl, fun _ => rfl⟩
        · rename_i m w1 h1
          obtain ⟨g1, g2⟩ := write_waits h0 hq h1
          rcases g2 with g | ⟨g, e⟩
          · cases g
          · cases g
            rw [if_pos (by decide), if_neg (by omega)] at h
            cases h
            refine ⟨.inr (.inl ?_), fun ha => (by cases g1 ha)⟩
            rw [e]; rfl
      · cases hp
      · repeat' split at hp
        all_goals cases hp
  unfold flush at hp h
  split at hp
  · rename_i hq
    split at h
    · cases h
    · rename_i r0 s0 h1
      cases h
      obtain ⟨g1, g2⟩ := key _ _ hq h1
      exact ⟨g1.guardA, fun ha => by rw [g2 ha]; rfl⟩
  · cases hp

/-! ## examples -/

/-- waiting for the rest of a write to be accepted, then canceled: the first two bytes are out -/
example : write [1, 2, 3] MAX ([{ sys := .acc 2 }] ++ [calm { sys := .err sysEAGAIN, cancel := true }]) { async := false } = none ∧
    ((write [1, 2, 3] MAX [{ sys := .acc 2 }, { sys := .err sysEAGAIN, cancel := true }, { sys := .acc 1 }] { async := false }).map fun (r, w) => (r, w.errno, w.out)) =
      some (.ret (-1), sysECANCELED, [1, 2]) := by decide +kernel
example : read 4 MAX ([] ++ [calm { sys := .err sysEAGAIN, cancel := true }]) { async := false } = none ∧
    ((read 4 MAX [{ sys := .err sysEAGAIN, cancel := true }, { sys := .data [1] }] { async := false }).map fun (r, bs, w) => (r, bs, w.errno)) =
      some (.ret (-1), [], sysECANCELED) := by decide +kernel

end Neco.Io
