import Verif.Proof.Io

/-! # Lemmas: the loops of read and write -/

namespace Neco.Io
open Neco.Err

/-- is the system call tried again? -/
def Again (e : Int) : Prop := e = sysEINTR ∨ e = sysEAGAIN

theorem checkdl_w (w : W) (dl now : Int) : (checkdl w dl now).2.inp = w.inp ∧ (checkdl w dl now).2.out = w.out ∧ (checkdl w dl now).2.torn = w.torn ∧ (checkdl w dl now).2.async = w.async ∧ (checkdl w dl now).2.errno = w.errno := by
  unfold checkdl; split <;> exact ⟨rfl, rfl, rfl, rfl, rfl⟩

theorem checkdl_ok {w : W} {dl now : Int} (h : (checkdl w dl now).1 = OK) : w.canceled = false ∧ w.deadlined = false ∧ (dl < MAX → now ≤ dl) ∧ (checkdl w dl now).2.canceled = false ∧ (checkdl w dl now).2.deadlined = false := by
  unfold checkdl at h ⊢
  split at h
  · rename_i hc
    rw [if_pos hc]
    simp only [Bool.and_eq_true, Bool.not_eq_true', decide_eq_true_eq] at hc
    exact ⟨hc.1.1, hc.1.2, fun e => by omega, hc.1.1, hc.1.2⟩
  · rename_i hc
    rw [if_neg hc]
    dsimp only at h ⊢
    split at h
    · exact absurd h (by decide)
    · rename_i hc1
      split at h
      · exact absurd h (by decide)
      · rename_i hc2
        simp only [Bool.or_eq_true, Bool.and_eq_true, Bool.not_eq_true', decide_eq_true_eq, not_or, not_and] at hc2
        have h1 : w.canceled = false := by simpa using hc1
        have h2 : w.deadlined = false := by simpa using hc2.1
        exact ⟨h1, h2, fun e => by have := hc2.2 ⟨⟨h1, h2⟩, e⟩; omega, rfl, rfl⟩

theorem checkdl_no {w : W} {dl now : Int} (h : (checkdl w dl now).1 ≠ OK) : (w.canceled = true ∧ (checkdl w dl now).1 = CANCELED) ∨ (w.canceled = false ∧ (w.deadlined = true ∨ (dl < MAX ∧ now > dl)) ∧ (checkdl w dl now).1 = TIMEDOUT) := by
  unfold checkdl at h ⊢
  split at h
  · exact absurd rfl h
  · rename_i hc
    rw [if_neg hc]
    dsimp only at h ⊢
    cases hcc : w.canceled with
    | true => exact .inl ⟨rfl, by simp⟩
    | false =>
      simp only [hcc, Bool.false_eq_true, if_false] at h ⊢
      right
      split at h
      · rename_i hl
        refine ⟨trivial, ?_, if_pos hl⟩
        simp only [Bool.or_eq_true, Bool.and_eq_true, Bool.not_eq_true', decide_eq_true_eq] at hl
        rcases hl with hl | hl
        · exact .inl hl
        · exact .inr ⟨hl.1.2, hl.2⟩
      · exact absurd rfl h

theorem dlErrno_canceled : dlErrno CANCELED = sysECANCELED := by decide
theorem dlErrno_timedout : dlErrno TIMEDOUT = sysETIMEDOUT := by decide

/-- what `read_dl` does -/
theorem readDl_spec {cnt : Nat} {dl : Int} : ∀ {ts : List (Turn SysR)} {w w' : W} {r : Res} {bs : List UInt8}, readDl cnt dl ts w = some (r, bs, w') →
    ∃ pre t post, ts = pre ++ t :: post ∧ (∀ u ∈ pre, ∃ e, u.sys = .err e ∧ Again e) ∧ w'.inp = w.inp ++ bs ∧ w'.out = w.out ∧ w'.torn = w.torn ∧ w'.async = w.async ∧
      ((r = .exit ∧ bs = [] ∧ w'.canceled = true ∧ w.async = true ∧ t.cancel = true) ∨
       (r = .ret (-1) ∧ bs = [] ∧ ((w'.errno = sysECANCELED ∧ (w.canceled = true ∨ ∃ u ∈ pre, u.cancel = true)) ∨
          (w'.errno = sysETIMEDOUT ∧ (w.deadlined = true ∨ (∃ u ∈ pre, u.expire = true) ∨ (dl < MAX ∧ t.now > dl))))) ∨
       (∃ e, t.sys = .err e ∧ ¬Again e ∧ r = .ret (-1) ∧ bs = [] ∧ w'.errno = e) ∨
       (∃ d, t.sys = .data d ∧ bs = d.take cnt ∧ r = .ret bs.length))
  | [], w, w', r, bs, h => by simp [readDl] at h
  | t :: ts, w, w', r, bs, h => by
    unfold readDl at h
    dsimp only at h
    obtain ⟨c1, c2, c3, c4, c5⟩ := checkdl_w w dl t.now
    split at h
    · rename_i hc
      simp only [Option.some.injEq, Prod.mk.injEq] at h
      obtain ⟨rfl, rfl, rfl⟩ := h
      refine ⟨[], t, ts, rfl, by simp, by simp [c1], by simp [c2], by simp [c3], by simp [c4], ?_⟩
      right; left
      refine ⟨rfl, rfl, ?_⟩
      rcases checkdl_no hc with ⟨h1, h2⟩ | ⟨h1, h2, h3⟩
      · left; rw [h2]; exact ⟨dlErrno_canceled, .inl h1⟩
      · right; rw [h3]; refine ⟨dlErrno_timedout, ?_⟩
        rcases h2 with h2 | h2
        · exact .inl h2
        · exact .inr (.inr h2)
    · rename_i hc
      have hc : (checkdl w dl t.now).1 = OK := by simpa using hc
      obtain ⟨o1, o2, o3, o4, o5⟩ := checkdl_ok hc
      split at h
      · rename_i hx
        simp only [pass, o4, Bool.false_or, Bool.and_eq_true] at hx
        simp only [Option.some.injEq, Prod.mk.injEq] at h
        obtain ⟨rfl, rfl, rfl⟩ := h
        refine ⟨[], t, ts, rfl, by simp, by simp [pass, c1], by simp [pass, c2], by simp [pass, c3], by simp [pass, c4], ?_⟩
        left
        exact ⟨rfl, rfl, by simp [pass, hx.1], by rw [← c4]; exact hx.2, hx.1⟩
      · split at h
        · rename_i e he
          split at h
          · rename_i ha
            obtain ⟨pre, t', post, q1, q2, q3, q4, q5, q6, q7⟩ := readDl_spec h
            refine ⟨t :: pre, t', post, by rw [q1]; rfl, ?_, by rw [q3]; simp [pass, c1], by rw [q4]; simp [pass, c2], by rw [q5]; simp [pass, c3], by rw [q6]; simp [pass, c4], ?_⟩
            · intro u hu
              rcases List.mem_cons.mp hu with rfl | hu
              · exact ⟨e, he, ha⟩
              · exact q2 u hu
            · simp only [pass, c4, o4, Bool.false_or] at q7
              rcases q7 with q7 | ⟨q7, q8, q9⟩ | q7
              · exact .inl q7
              · refine .inr (.inl ⟨q7, q8, ?_⟩)
                rcases q9 with ⟨q9, q10⟩ | ⟨q9, q10⟩
                · refine .inl ⟨q9, .inr ?_⟩
                  rcases q10 with q10 | ⟨u, hu, q10⟩
                  · exact ⟨t, by simp, q10⟩
                  · exact ⟨u, by simp [hu], q10⟩
                · refine .inr ⟨q9, ?_⟩
                  rcases q10 with q10 | ⟨u, hu, q10⟩ | q10
                  · exact .inr (.inl ⟨t, by simp, q10⟩)
                  · exact .inr (.inl ⟨u, by simp [hu], q10⟩)
                  · exact .inr (.inr q10)
              · exact .inr (.inr q7)
          · rename_i ha
            simp only [Option.some.injEq, Prod.mk.injEq] at h
            obtain ⟨rfl, rfl, rfl⟩ := h
            refine ⟨[], t, ts, rfl, by simp, by simp [pass, c1], by simp [pass, c2], by simp [pass, c3], by simp [pass, c4], ?_⟩
            exact .inr (.inr (.inl ⟨e, he, ha, rfl, rfl, rfl⟩))
        · rename_i d hd
          simp only [Option.some.injEq, Prod.mk.injEq] at h
          obtain ⟨rfl, rfl, rfl⟩ := h
          refine ⟨[], t, ts, rfl, by simp, by simp [pass, c1], by simp [pass, c2], by simp [pass, c3], by simp [pass, c4], ?_⟩
          exact .inr (.inr (.inr ⟨d, hd, rfl, rfl⟩))

theorem guardA_w (r : Res) (w : W) : (guardA r w).2.inp = w.inp ∧ (guardA r w).2.out = w.out ∧ (guardA r w).2.torn = w.torn ∧ (guardA r w).2.errno = w.errno ∧ (guardA r w).2.canceled = w.canceled ∧ (guardA r w).2.deadlined = w.deadlined ∧ (guardA r w).2.async = w.async := by
  unfold guardA; split <;> exact ⟨rfl, rfl, rfl, rfl, rfl, rfl, rfl⟩
theorem guardE_w (r : Res) (w : W) : (guardE r w).2.inp = w.inp ∧ (guardE r w).2.out = w.out ∧ (guardE r w).2.torn = w.torn ∧ (guardE r w).2.errno = w.errno ∧ (guardE r w).2.canceled = w.canceled ∧ (guardE r w).2.deadlined = w.deadlined ∧ (guardE r w).2.async = w.async := by
  unfold guardE; split <;> exact ⟨rfl, rfl, rfl, rfl, rfl, rfl, rfl⟩
theorem guardE_r (r : Res) (w : W) : (guardE r w).1 = r := by unfold guardE; split <;> rfl

/-- the guard lets results pass that are not negative -/
theorem guardA_nonneg {n : Int} (w : W) (h : 0 ≤ n) : (guardA (.ret n) w).1 = .ret n := by
  have : ¬ n < 0 := by omega
  have hk : ¬ ((0 : Int) = CANCELED ∧ w.async = true) := fun h => absurd h.1 (by decide)
  simp [guardA, asyncErrorGuard, errorGuard, this, hk]

theorem guardA_ret {r : Res} {w : W} {n : Int} (h : (guardA r w).1 = .ret n) : r = .ret n := by
  unfold guardA at h
  split at h
  · cases h
  · dsimp only at h; split at h
    · cases h
    · exact h

/-- only a canceled call is ended by the guard -/
theorem guardA_exit {n : Int} {w : W} (h : (guardA (.ret n) w).1 = .exit) : w.async = true ∧ ((n = -1 ∧ w.errno = sysECANCELED) ∨ n = CANCELED) := by
  unfold guardA at h
  dsimp only at h
  split at h
  · rename_i hg
    unfold asyncErrorGuard at hg
    dsimp only at hg
    split at hg
    · rename_i hp; rw [show (errorGuard n w.errno false).exited = false from by unfold errorGuard; split <;> rfl] at hg; cases hg
    · split at hg
      · rename_i hx
        refine ⟨hx.2, ?_⟩
        have := hx.1
        unfold errorGuard at this
        split at this
        · dsimp only at this
          split at this
          · rename_i h1
            refine .inl ⟨h1, ?_⟩
            unfold fromSys at this
            (repeat' split at this) <;> first | assumption | (exact absurd this (by decide))
          · exact .inr this
        · exact absurd this (by decide)
      · rw [show (errorGuard n w.errno false).exited = false from by unfold errorGuard; split <;> rfl] at hg; cases hg
  · cases h

theorem guardA_lasterr {n : Int} (w : W) (h : 0 ≤ n) : (guardA (.ret n) w).2.lasterr = 0 := by
  have : ¬ n < 0 := by omega
  have hk : ¬ ((0 : Int) = CANCELED ∧ w.async = true) := fun h => absurd h.1 (by decide)
  simp [guardA, asyncErrorGuard, errorGuard, this, hk]

/-- no worker thread is left behind -/
def NoEarly (ts : List (Turn SysW)) : Prop := ∀ t ∈ ts, ∀ k, t.sys ≠ .early k

/-- a torn write stays on record -/
theorem writeLoop_torn {dl : Int} : ∀ {ts : List (Turn SysW)} {d : List UInt8} {n : Nat} {w w' : W} {r : Res}, writeLoop dl ts d n w = some (r, w') → w'.torn = false → w.torn = false
  | [], d, n, w, w', r, h, _ => by simp [writeLoop] at h
  | t :: ts, d, n, w, w', r, h, ht => by
    unfold writeLoop at h
    dsimp only at h
    obtain ⟨c1, c2, c3, c4, c5⟩ := checkdl_w w dl t.now
    (repeat' split at h) <;> first
      | (simp only [Option.some.injEq, Prod.mk.injEq] at h; obtain ⟨rfl, rfl⟩ := h; simp_all [pass]; done)
      | (have := writeLoop_torn h ht; simp_all [pass]; done)

/-- what the loop of `write_dl` does -/
theorem writeLoop_spec {dl : Int} : ∀ {ts : List (Turn SysW)} {d : List UInt8} {n : Nat} {w w' : W} {r : Res}, writeLoop dl ts d n w = some (r, w') → (NoEarly ts ∨ w'.torn = false) →
    ∃ k, k ≤ d.length ∧ w'.out = w.out ++ d.take k ∧ (∀ m, r = .ret m → m = -1 ∨ m = (n + k : Nat)) ∧
      (r = .ret (n + k : Nat) → k < d.length → 0 < n + k ∧ ∃ t ∈ ts, ∃ e, t.sys = .err e ∧ ¬Again e ∧ w'.errno = e) ∧
      (w'.torn = false → r = .ret (-1) ∨ r = .exit → n + k = 0) ∧ w'.inp = w.inp
  | [], d, n, w, w', r, h, _ => by simp [writeLoop] at h
  | t :: ts, d, n, w, w', r, h, ho => by
    have ho' : NoEarly ts ∨ w'.torn = false := ho.imp (fun h u hu => h u (by simp [hu])) id
    have neg : ∀ m : Nat, (.ret (-1) : Res) = .ret (m : Int) → False := fun m e => by injection e; omega
    unfold writeLoop at h
    dsimp only at h
    obtain ⟨c1, c2, c3, c4, c5⟩ := checkdl_w w dl t.now
    split at h
    · simp only [Option.some.injEq, Prod.mk.injEq] at h
      obtain ⟨rfl, rfl⟩ := h
      refine ⟨0, Nat.zero_le _, by simp [c2], fun m e => .inl (by injection e; omega), fun e => (neg _ e).elim, fun ht _ => ?_, by simp [c1]⟩
      simp only [Bool.or_eq_false_iff, decide_eq_false_iff_not] at ht; omega
    · split at h
      · rename_i e he
        split at h
        · rename_i ha
          split at h
          · simp only [Option.some.injEq, Prod.mk.injEq] at h
            obtain ⟨rfl, rfl⟩ := h
            refine ⟨0, Nat.zero_le _, by simp [pass, c2], fun m e => (by cases e), fun e => (by cases e), fun ht _ => ?_, by simp [pass, c1]⟩
            simp only [Bool.or_eq_false_iff, decide_eq_false_iff_not] at ht; omega
          · split at h
            · rename_i hd
              simp only [Option.some.injEq, Prod.mk.injEq] at h
              obtain ⟨rfl, rfl⟩ := h
              refine ⟨0, Nat.zero_le _, by simp [pass, c2], fun m e => .inr (by injection e with e; exact e.symm), fun _ hl => (by simp [hd] at hl), fun _ hx => ?_, by simp [pass, c1]⟩
              rcases hx with hx | hx
              · exact (neg _ hx.symm).elim
              · cases hx
            · obtain ⟨k, q1, q2, q3, q4, q5, q6⟩ := writeLoop_spec h ho'
              refine ⟨k, q1, by rw [q2]; simp [pass, c2], q3, fun a b => ?_, q5, by rw [q6]; simp [pass, c1]⟩
              obtain ⟨z, u, hu, x⟩ := q4 a b
              exact ⟨z, u, by simp [hu], x⟩
        · rename_i ha
          split at h
          · rename_i hn
            simp only [Option.some.injEq, Prod.mk.injEq] at h
            obtain ⟨rfl, rfl⟩ := h
            exact ⟨0, Nat.zero_le _, by simp [c2], fun m e => .inl (by injection e; omega), fun e => (neg _ e).elim, fun _ _ => by omega, by simp [c1]⟩
          · rename_i hn
            simp only [Option.some.injEq, Prod.mk.injEq] at h
            obtain ⟨rfl, rfl⟩ := h
            refine ⟨0, Nat.zero_le _, by simp [c2], fun m e => .inr (by injection e with e; exact e.symm), fun _ _ => ⟨by omega, t, by simp, e, he, ha, rfl⟩, fun _ hx => ?_, by simp [c1]⟩
            rcases hx with hx | hx
            · exact (neg _ hx.symm).elim
            · cases hx
      · rename_i k he
        have hk : (d.take k).length = min k d.length := List.length_take
        have htk : d.take k = d.take (min k d.length) := by
          rw [← List.take_take, List.take_length]
        split at h
        · rename_i hd
          have hd' : d.length ≤ k := by rw [List.drop_eq_nil_iff] at hd; exact hd
          simp only [Option.some.injEq, Prod.mk.injEq] at h
          obtain ⟨rfl, rfl⟩ := h
          refine ⟨min k d.length, Nat.min_le_right _ _, by rw [← htk]; simp [c2], fun m e => .inr (by injection e with e; rw [← e, hk]), fun _ hl => by omega, fun _ hx => ?_, by simp [c1]⟩
          rcases hx with hx | hx
          · exact (neg _ hx.symm).elim
          · cases hx
        · split at h
          · simp only [Option.some.injEq, Prod.mk.injEq] at h
            obtain ⟨rfl, rfl⟩ := h
            refine ⟨min k d.length, Nat.min_le_right _ _, by rw [← htk]; simp [pass, c2], fun m e => (by cases e), fun e => (by cases e), fun ht _ => ?_, by simp [pass, c1]⟩
            simp only [Bool.or_eq_false_iff, decide_eq_false_iff_not] at ht; omega
          · obtain ⟨j, q1, q2, q3, q4, q5, q6⟩ := writeLoop_spec h ho'
            rw [List.length_drop] at q1 q4
            rename_i hd _
            have hd' : k < d.length := by rw [List.drop_eq_nil_iff] at hd; omega
            rw [hk, Nat.min_eq_left (by omega)] at q3 q4 q5
            have hassoc : n + k + j = n + (k + j) := by omega
            rw [hassoc] at q3 q4 q5
            refine ⟨k + j, by omega, ?_, q3, fun a b => ?_, q5, by rw [q6]; simp [pass, c1]⟩
            · rw [q2, List.take_add]; simp [pass, c2]
            · obtain ⟨z, u, hu, x⟩ := q4 a (by omega)
              exact ⟨z, u, by simp [hu], x⟩
      · rename_i k he
        have hz : d.take k = [] := by
          rcases ho with ho | ho
          · exact absurd he (ho t (by simp) k)
          · have ht : (checkdl w dl t.now).2.torn = false ∧ d.take k = [] := by
              split at h
              · simp only [Option.some.injEq, Prod.mk.injEq] at h
                obtain ⟨rfl, rfl⟩ := h
                simp at ho
                exact ⟨ho.1, by rw [List.take_eq_nil_iff]; exact Decidable.or_iff_not_imp_left.mpr ho.2⟩
              · split at h
                · simp only [Option.some.injEq, Prod.mk.injEq] at h
                  obtain ⟨rfl, rfl⟩ := h
                  simp [pass] at ho
                  exact ⟨ho.1.1, by rw [List.take_eq_nil_iff]; exact Decidable.or_iff_not_imp_left.mpr ho.1.2⟩
                · have := writeLoop_torn h ho
                  simp [pass] at this
                  exact ⟨this.1, by rw [List.take_eq_nil_iff]; exact Decidable.or_iff_not_imp_left.mpr this.2⟩
            exact ht.2
        simp only [hz, List.append_nil, ne_eq, not_true_eq_false, decide_false, Bool.or_false] at h
        split at h
        · rename_i hd
          simp only [Option.some.injEq, Prod.mk.injEq] at h
          obtain ⟨rfl, rfl⟩ := h
          refine ⟨0, Nat.zero_le _, by simp [c2], fun m e => .inr (by injection e with e; exact e.symm), fun _ hl => (by simp [hd] at hl), fun _ hx => ?_, by simp [c1]⟩
          rcases hx with hx | hx
          · exact (neg _ hx.symm).elim
          · cases hx
        · split at h
          · simp only [Option.some.injEq, Prod.mk.injEq] at h
            obtain ⟨rfl, rfl⟩ := h
            refine ⟨0, Nat.zero_le _, by simp [pass, c2], fun m e => (by cases e), fun e => (by cases e), fun ht _ => ?_, by simp [pass, c1]⟩
            simp only [Bool.or_eq_false_iff, decide_eq_false_iff_not] at ht; omega
          · obtain ⟨j, q1, q2, q3, q4, q5, q6⟩ := writeLoop_spec h ho'
            refine ⟨j, q1, by rw [q2]; simp [pass, c2], q3, fun a b => ?_, q5, by rw [q6]; simp [pass, c1]⟩
            obtain ⟨z, u, hu, x⟩ := q4 a b
            exact ⟨z, u, by simp [hu], x⟩

/-- an undisturbed write is not torn -/
theorem writeLoop_calm {ts : List (Turn SysW)} : ∀ {d : List UInt8} {n : Nat} {w w' : W} {r : Res}, writeLoop MAX ts d n w = some (r, w') → (∀ t ∈ ts, Calm t) → (n = 0 ∨ (w.canceled = false ∧ w.deadlined = false)) → w.torn = false → w'.torn = false := by
  induction ts with
  | nil => intro d n w w' r h; simp [writeLoop] at h
  | cons t ts ih =>
    intro d n w w' r h hc hf ht
    obtain ⟨e1, e2, e3⟩ := hc t (by simp)
    have hc' : ∀ u ∈ ts, Calm u := fun u hu => hc u (by simp [hu])
    unfold writeLoop at h
    dsimp only at h
    obtain ⟨c1, c2, c3, c4, c5⟩ := checkdl_w w MAX t.now
    split at h
    · rename_i hk
      simp only [Option.some.injEq, Prod.mk.injEq] at h
      obtain ⟨rfl, rfl⟩ := h
      rcases hf with hf | hf
      · simp [hf, c3, ht]
      · rcases checkdl_no hk with ⟨h1, _⟩ | ⟨_, h1, _⟩
        · rw [hf.1] at h1; cases h1
        · rcases h1 with h1 | h1
          · rw [hf.2] at h1; cases h1
          · exact absurd h1.1 (by omega)
    · rename_i hk
      have hk : (checkdl w MAX t.now).1 = OK := by simpa using hk
      obtain ⟨o1, o2, o3, o4, o5⟩ := checkdl_ok hk
      split at h
      · split at h
        · split at h
          · rename_i hx; simp [pass, o4, e1] at hx
          · split at h
            · simp only [Option.some.injEq, Prod.mk.injEq] at h
              obtain ⟨rfl, rfl⟩ := h; simp [pass, c3, ht]
            · exact ih h hc' (.inr ⟨by simp [pass, o4, e1], by simp [pass, e2]⟩) (by simp [pass, c3, ht])
        · split at h <;>
          · simp only [Option.some.injEq, Prod.mk.injEq] at h
            obtain ⟨rfl, rfl⟩ := h; simp [c3, ht]
      · split at h
        · simp only [Option.some.injEq, Prod.mk.injEq] at h
          obtain ⟨rfl, rfl⟩ := h; simp [c3, ht]
        · split at h
          · rename_i hx; simp [pass, o4, e1] at hx
          · exact ih h hc' (.inr ⟨by simp [pass, o4, e1], by simp [pass, e2]⟩) (by simp [pass, c3, ht])
      · rename_i k he
        exact absurd he (e3 k)

/-- an undisturbed write fails only before the first byte -/
theorem writeLoop_calm_error {ts : List (Turn SysW)} : ∀ {d : List UInt8} {n : Nat} {w w' : W} {r : Res}, writeLoop MAX ts d n w = some (r, w') → (∀ t ∈ ts, Calm t) → (n = 0 ∨ (w.canceled = false ∧ w.deadlined = false)) → (r = .ret (-1) ∨ r = .exit) → n = 0 ∧ w'.out = w.out := by
  induction ts with
  | nil => intro d n w w' r h; simp [writeLoop] at h
  | cons t ts ih =>
    intro d n w w' r h hc hf hr
    have neg : ∀ m : Nat, ((.ret (m : Int) : Res) = .ret (-1) ∨ (.ret (m : Int) : Res) = .exit) → False := by
      intro m e
      rcases e with e | e
      · injection e; omega
      · cases e
    obtain ⟨e1, e2, e3⟩ := hc t (by simp)
    have hc' : ∀ u ∈ ts, Calm u := fun u hu => hc u (by simp [hu])
    unfold writeLoop at h
    dsimp only at h
    obtain ⟨c1, c2, c3, c4, c5⟩ := checkdl_w w MAX t.now
    split at h
    · rename_i hk
      simp only [Option.some.injEq, Prod.mk.injEq] at h
      obtain ⟨rfl, rfl⟩ := h
      rcases hf with hf | hf
      · exact ⟨hf, by simp [c2]⟩
      · rcases checkdl_no hk with ⟨h1, _⟩ | ⟨_, h1, _⟩
        · rw [hf.1] at h1; cases h1
        · rcases h1 with h1 | h1
          · rw [hf.2] at h1; cases h1
          · exact absurd h1.1 (by omega)
    · rename_i hk
      have hk : (checkdl w MAX t.now).1 = OK := by simpa using hk
      obtain ⟨o1, o2, o3, o4, o5⟩ := checkdl_ok hk
      split at h
      · split at h
        · split at h
          · rename_i hx; simp [pass, o4, e1] at hx
          · split at h
            · simp only [Option.some.injEq, Prod.mk.injEq] at h
              obtain ⟨rfl, rfl⟩ := h; exact (neg _ hr).elim
            · obtain ⟨q1, q2⟩ := ih h hc' (.inr ⟨by simp [pass, o4, e1], by simp [pass, e2]⟩) hr
              exact ⟨q1, by rw [q2]; simp [pass, c2]⟩
        · split at h
          · rename_i hn
            simp only [Option.some.injEq, Prod.mk.injEq] at h
            obtain ⟨rfl, rfl⟩ := h; exact ⟨hn, by simp [c2]⟩
          · simp only [Option.some.injEq, Prod.mk.injEq] at h
            obtain ⟨rfl, rfl⟩ := h; exact (neg _ hr).elim
      · split at h
        · simp only [Option.some.injEq, Prod.mk.injEq] at h
          obtain ⟨rfl, rfl⟩ := h; exact (neg _ hr).elim
        · split at h
          · rename_i hx; simp [pass, o4, e1] at hx
          · obtain ⟨q1, q2⟩ := ih h hc' (.inr ⟨by simp [pass, o4, e1], by simp [pass, e2]⟩) hr
            refine ⟨by omega, ?_⟩
            rename_i k _ _ _
            have : d.take k = [] := List.length_eq_zero_iff.mp (by omega)
            rw [q2]; simp only [pass, this, List.append_nil, c2]
      · rename_i k he
        exact absurd he (e3 k)

/-- what `neco_write_dl` does -/
theorem write_spec {d : List UInt8} {dl : Int} {ts : List (Turn SysW)} {w w' : W} {r : Res} (h : write d dl ts w = some (r, w')) (ho : NoEarly ts ∨ w'.torn = false) :
    ∃ k, k ≤ d.length ∧ w'.out = w.out ++ d.take k ∧ (∀ m, r = .ret m → m = -1 ∨ m = (k : Nat)) ∧
      (r = .ret (k : Nat) → k < d.length → 0 < k ∧ w'.lasterr = PARTIALWRITE ∧ ∃ t ∈ ts, ∃ e, t.sys = .err e ∧ ¬Again e ∧ w'.errno = e) ∧
      (w'.torn = false → r = .ret (-1) ∨ r = .exit → k = 0) ∧ w'.inp = w.inp := by
  unfold write at h
  split at h
  · cases h
  · rename_i r0 w0 hw
    dsimp only at h
    obtain ⟨g1, g2, g3, g4, g5, g6, g7⟩ := guardA_w r0 w0
    have key : w'.out = w0.out ∧ w'.torn = w0.torn ∧ w'.inp = w0.inp ∧ w'.errno = w0.errno ∧ (guardA r0 w0).1 = r := by
      split at h
      · rename_i hx
        simp only [Option.some.injEq, Prod.mk.injEq] at h
        obtain ⟨rfl, rfl⟩ := h; exact ⟨g2, g3, g1, g4, hx⟩
      · rename_i m hx
        simp only [Option.some.injEq, Prod.mk.injEq] at h
        obtain ⟨rfl, rfl⟩ := h
        split
        · exact ⟨g2, g3, g1, g4, hx⟩
        · exact ⟨g2, g3, g1, g4, hx⟩
    obtain ⟨k1, k2, k3, k4, k5⟩ := key
    rw [k2] at ho
    obtain ⟨k, q1, q2, q3, q4, q5, q6⟩ := writeLoop_spec hw ho
    simp only [Nat.zero_add] at q3 q4 q5
    have hret : ∀ m, r = .ret m → r0 = .ret m := fun m e => guardA_ret (k5.trans e)
    refine ⟨k, q1, k1.trans q2, fun m e => q3 m (hret m e), fun e hl => ?_, fun ht hx => ?_, k3.trans q6⟩
    · obtain ⟨z, u, hu, ee, x1, x2, x3⟩ := q4 (hret _ e) hl
      refine ⟨z, ?_, u, hu, ee, x1, x2, k4.trans x3⟩
      subst e
      rw [k5] at h
      simp only [Option.some.injEq, Prod.mk.injEq, true_and] at h
      rw [← h, if_pos ⟨by omega, by omega⟩]
    · rw [k2] at ht
      refine q5 ht ?_
      rcases hx with hx | hx
      · exact .inl (hret _ hx)
      · cases r0 with
        | exit => exact .inr rfl
        | ret m =>
          rw [hx] at k5
          rcases (guardA_exit k5).2 with ⟨hm, _⟩ | hm
          · exact .inl (by rw [hm])
          · rcases q3 m rfl with q | q
            · exact .inl (by rw [q])
            · rw [q] at hm; exact absurd hm (by unfold CANCELED; omega)

theorem write_torn {d : List UInt8} {dl : Int} {ts : List (Turn SysW)} {w w' : W} {r : Res} (h : write d dl ts w = some (r, w')) : (w'.torn = false → w.torn = false) ∧ (dl = MAX → (∀ t ∈ ts, Calm t) → w.torn = false → w'.torn = false) := by
  unfold write at h
  split at h
  · cases h
  · rename_i r0 w0 hw
    dsimp only at h
    obtain ⟨g1, g2, g3, g4, g5, g6, g7⟩ := guardA_w r0 w0
    have key : w'.torn = w0.torn := by
      split at h
      · simp only [Option.some.injEq, Prod.mk.injEq] at h
        obtain ⟨rfl, rfl⟩ := h; exact g3
      · simp only [Option.some.injEq, Prod.mk.injEq] at h
        obtain ⟨rfl, rfl⟩ := h
        split <;> exact g3
    rw [key]
    refine ⟨writeLoop_torn hw, fun e hc ht => ?_⟩
    subst e
    exact writeLoop_calm hw hc (.inl rfl) ht

/-- what `neco_read_dl` leaves alone, and that it drops nothing -/
theorem read_spec {cnt : Nat} {dl : Int} {ts : List (Turn SysR)} {w w' : W} {r : Res} {bs : List UInt8} (h : read cnt dl ts w = some (r, bs, w')) :
    w'.inp = w.inp ++ bs ∧ w'.out = w.out ∧ w'.torn = w.torn ∧ bs.length ≤ cnt ∧ (∀ n, r = .ret n → (n = -1 ∧ bs = []) ∨ (n = bs.length ∧ w'.lasterr = 0)) ∧ (r = .exit → bs = []) := by
  unfold read at h
  split at h
  · cases h
  · rename_i r0 bs0 w0 hr
    simp only [Option.some.injEq, Prod.mk.injEq] at h
    obtain ⟨rfl, rfl, rfl⟩ := h
    obtain ⟨g1, g2, g3, g4, g5, g6, g7⟩ := guardA_w r0 w0
    obtain ⟨pre, t, post, q1, q2, q3, q4, q5, q6, q7⟩ := readDl_spec hr
    rcases q7 with ⟨x1, x2, _⟩ | ⟨x1, x2, _⟩ | ⟨e, _, _, x1, x2, _⟩ | ⟨d, _, x1, x2⟩
    · subst x1 x2
      exact ⟨g1.trans q3, g2.trans q4, g3.trans q5, by simp, fun n e => by simp [guardA] at e, fun _ => rfl⟩
    · subst x1 x2
      exact ⟨g1.trans q3, g2.trans q4, g3.trans q5, by simp, fun n e => .inl ⟨by have := guardA_ret e; injection this with this; exact this.symm, rfl⟩, fun _ => rfl⟩
    · subst x1 x2
      exact ⟨g1.trans q3, g2.trans q4, g3.trans q5, by simp, fun n e => .inl ⟨by have := guardA_ret e; injection this with this; exact this.symm, rfl⟩, fun _ => rfl⟩
    · subst x2
      refine ⟨g1.trans q3, g2.trans q4, g3.trans q5, by rw [x1, List.length_take]; omega, fun n e => .inr ⟨by have := guardA_ret e; injection this with this; exact this.symm, guardA_lasterr _ (by omega)⟩, fun e => ?_⟩
      rw [guardA_nonneg _ (by omega)] at e; cases e

end Neco.Io
