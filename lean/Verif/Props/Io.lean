import Verif.Proof.Io2

/-! # C37, C38: what neco_write and neco_read report -/

namespace Neco.Io
open Neco.Err

/-- **C37** whatever happens during the call, as long as the worker thread that writes is waited for: the bytes the descriptor accepted are the first `k` of the buffer, once and in order;
a result that is not negative is exactly `k`; and it is less than asked for only if the descriptor reported an error (other than to try again) after some bytes, which is then in `errno`, and `neco_lasterr` tells -/
theorem C37_prefix_partial {d : List UInt8} {dl : Int} {ts : List (Turn SysW)} {w w' : W} {r : Res}
    (hn : ∀ t ∈ ts, ∀ k, t.sys ≠ .early k) (h : write d dl ts w = some (r, w')) :
    ∃ k, k ≤ d.length ∧ w'.out = w.out ++ d.take k ∧ (∀ n, r = .ret n → 0 ≤ n → n = (k : Nat)) ∧ (∀ n, r = .ret n → n < 0 → n = -1) ∧
      (r = .ret (k : Nat) → k < d.length → 0 < k ∧ w'.lasterr = PARTIALWRITE ∧ ∃ t ∈ ts, ∃ e, t.sys = .err e ∧ e ≠ sysEINTR ∧ e ≠ sysEAGAIN ∧ w'.errno = e) := by
  obtain ⟨k, q1, q2, q3, q4, q5, q6⟩ := write_spec h (.inl hn)
  refine ⟨k, q1, q2, fun n e hn => ?_, fun n e hn => ?_, fun e hl => ?_⟩
  · rcases q3 n e with q | q
    · omega
    · exact q
  · rcases q3 n e with q | q
    · exact q
    · omega
  · obtain ⟨z, z2, t, ht, e, x1, x2, x3⟩ := q4 e hl
    exact ⟨z, z2, t, ht, e, x1, fun q => x2 (.inl q), fun q => x2 (.inr q), x3⟩

/-- **C37** when nobody cancels the caller during the call and there is no deadline: after `-1` the descriptor has accepted nothing (also if the call does not return) -/
theorem C37_error_partial {d : List UInt8} {ts : List (Turn SysW)} {w w' : W} {r : Res}
    (hc : ∀ t ∈ ts, Calm t) (h : write d MAX ts w = some (r, w')) (hr : r = .ret (-1) ∨ r = .exit) : w'.out = w.out := by
  unfold write at h
  split at h
  · cases h
  · rename_i r0 w0 hw
    dsimp only at h
    obtain ⟨g1, g2, g3, g4, g5, g6, g7⟩ := guardA_w r0 w0
    have key : w'.out = w0.out ∧ (guardA r0 w0).1 = r := by
      split at h
      · rename_i hx
        simp only [Option.some.injEq, Prod.mk.injEq] at h
        obtain ⟨rfl, rfl⟩ := h; exact ⟨g2, hx⟩
      · rename_i m hx
        simp only [Option.some.injEq, Prod.mk.injEq] at h
        obtain ⟨rfl, rfl⟩ := h
        split <;> exact ⟨g2, hx⟩
    rw [key.1]
    have hret : ∀ m, r = .ret m → r0 = .ret m := fun m e => guardA_ret (key.2.trans e)
    refine (writeLoop_calm_error hw hc (.inl rfl) ?_).2
    rcases hr with hr | hr
    · exact .inl (hret _ hr)
    · cases r0 with
      | exit => exact .inr rfl
      | ret m =>
        have hk := key.2
        rw [hr] at hk
        rcases (guardA_exit hk).2 with ⟨hm, _⟩ | hm
        · exact .inl (by rw [hm])
        · obtain ⟨k, _, _, q3, _⟩ := writeLoop_spec hw (.inl (fun t ht => (hc t ht).2.2))
          rcases q3 m rfl with q | q
          · exact .inl (by rw [q])
          · rw [q] at hm; exact absurd hm (by unfold CANCELED; omega)

/-- **False of the code**: `-1` although bytes were accepted, when the caller is canceled (or the deadline passes) in the middle -/
theorem C37_error_not_general : ¬ ∀ (d : List UInt8) (dl : Int) (ts : List (Turn SysW)) (w w' : W), (∀ t ∈ ts, ∀ k, t.sys ≠ .early k) → write d dl ts w = some (.ret (-1), w') → w'.out = w.out := by
  intro h
  have := h [1, 2, 3] MAX [{ sys := .acc 2, cancel := true }, { sys := .acc 1 }] { async := false } _ (by intro t ht k; simp at ht; rcases ht with rfl | rfl <;> simp) rfl
  exact absurd this (by decide)

/-- **False of the code**: the same with a deadline and nobody canceling -/
theorem C37_deadline_not_general : ¬ ∀ (d : List UInt8) (dl : Int) (ts : List (Turn SysW)) (w w' : W), (∀ t ∈ ts, Calm t) → write d dl ts w = some (.ret (-1), w') → w'.out = w.out := by
  intro h
  have := h [1, 2, 3] 10 [{ sys := .acc 2, now := 5 }, { sys := .acc 1, now := 15 }] {} _ (by intro t ht; simp at ht; rcases ht with rfl | rfl <;> simp [Calm]) rfl
  exact absurd this (by decide)

/-- **False of the code** when the coroutine is woken up before the worker thread has written (as by `neco_cancel`): the bytes are written again -/
theorem C37_prefix_not_general : ¬ ∀ (d : List UInt8) (dl : Int) (ts : List (Turn SysW)) (w w' : W) (n : Int), write d dl ts w = some (.ret n, w') → 0 ≤ n → w'.out = w.out ++ d.take n.toNat := by
  intro h
  have := h [1, 2] MAX [{ sys := .early 2 }, { sys := .acc 2 }] {} _ 2 rfl (by decide)
  exact absurd this (by decide)

/-- two short writes with a retry, and one with an error: the hypotheses are met -/
example : ∃ w', write [1, 2, 3, 4] MAX [{ sys := .acc 1 }, { sys := .err sysEAGAIN }, { sys := .acc 2 }, { sys := .acc 7 }] {} = some (.ret 4, w') ∧ w'.out = [1, 2, 3, 4] := ⟨_, rfl, rfl⟩
example : ∃ w', write [1, 2, 3, 4] MAX [{ sys := .acc 3 }, { sys := .err 5 }] {} = some (.ret 3, w') ∧ w'.out = [1, 2, 3] ∧ w'.errno = 5 ∧ w'.lasterr = PARTIALWRITE := ⟨_, rfl, rfl, rfl, rfl⟩
example : ∃ w', write [1, 2, 3, 4] MAX [{ sys := .err sysEINTR }, { sys := .err 32 }] {} = some (.ret (-1), w') ∧ w'.out = [] := ⟨_, rfl, rfl⟩

/-- **C38** the call retries `EINTR` and `EAGAIN` and ends with the first other result of `read`, or before it because the caller was canceled or its deadline passed; then there is no data.  The data is what that `read` delivered, and nothing that the descriptor delivered is dropped -/
theorem C38_read {cnt : Nat} {dl : Int} {ts : List (Turn SysR)} {w w' : W} {r : Res} {bs : List UInt8} (h : read cnt dl ts w = some (r, bs, w')) :
    w'.inp = w.inp ++ bs ∧
    ∃ pre t post, ts = pre ++ t :: post ∧ (∀ u ∈ pre, u.sys = .err sysEINTR ∨ u.sys = .err sysEAGAIN) ∧
      ((∃ d, t.sys = .data d ∧ bs = d.take cnt ∧ r = .ret bs.length) ∨
       (∃ e, t.sys = .err e ∧ e ≠ sysEINTR ∧ e ≠ sysEAGAIN ∧ bs = [] ∧ w'.errno = e ∧ (r = .ret (-1) ∨ (r = .exit ∧ e = sysECANCELED ∧ w.async = true))) ∨
       (bs = [] ∧ (w.canceled = true ∨ ∃ u ∈ pre ++ [t], u.cancel = true) ∧ ((r = .ret (-1) ∧ w'.errno = sysECANCELED ∧ w.async = false) ∨ (r = .exit ∧ w.async = true))) ∨
       (bs = [] ∧ (w.deadlined = true ∨ (∃ u ∈ pre, u.expire = true) ∨ (dl < MAX ∧ t.now > dl)) ∧ r = .ret (-1) ∧ w'.errno = sysETIMEDOUT)) := by
  refine ⟨(read_spec h).1, ?_⟩
  unfold read at h
  split at h
  · cases h
  · rename_i r0 bs0 w0 hr
    simp only [Option.some.injEq, Prod.mk.injEq] at h
    obtain ⟨rfl, rfl, rfl⟩ := h
    obtain ⟨g1, g2, g3, g4, g5, g6, g7⟩ := guardA_w r0 w0
    obtain ⟨pre, t, post, q1, q2, q3, q4, q5, q6, q7⟩ := readDl_spec hr
    refine ⟨pre, t, post, q1, fun u hu => ?_, ?_⟩
    · obtain ⟨e, he, ha⟩ := q2 u hu
      rcases ha with ha | ha
      · left; rw [he, ha]
      · right; rw [he, ha]
    · have hneg : ∀ w0 : W, (guardA (.ret (-1)) w0).1 = .ret (-1) ∨ (guardA (.ret (-1)) w0).1 = .exit := by
        intro w0; simp only [guardA]; split
        · exact .inr rfl
        · exact .inl rfl
      rcases q7 with ⟨x1, x2, x3, x4, x5⟩ | ⟨x1, x2, x3⟩ | ⟨e, x0, x3, x1, x2, x4⟩ | ⟨d, x0, x1, x2⟩
      · subst x1 x2
        exact .inr (.inr (.inl ⟨rfl, .inr ⟨t, by simp, x5⟩, .inr ⟨rfl, x4⟩⟩))
      · subst x1 x2
        rcases x3 with ⟨x3, x4⟩ | ⟨x3, x4⟩
        · refine .inr (.inr (.inl ⟨rfl, ?_, ?_⟩))
          · rcases x4 with x4 | ⟨u, hu, x4⟩
            · exact .inl x4
            · exact .inr ⟨u, by simp [hu], x4⟩
          · cases ha : w.async with
            | true =>
              right
              refine ⟨?_, rfl⟩
              simp [guardA, asyncErrorGuard, errorGuard, x3, q6, ha, show fromSys sysECANCELED = CANCELED from by decide, show (CANCELED = INVAL) = False from by decide, show (CANCELED = PERM) = False from by decide, show (CANCELED = NOMEM) = False from by decide]
            | false =>
              left
              refine ⟨?_, g4.trans x3, rfl⟩
              rcases hneg w0 with hg | hg
              · exact hg
              · have := (guardA_exit hg).1; rw [q6, ha] at this; cases this
        · refine .inr (.inr (.inr ⟨rfl, x4, ?_, g4.trans x3⟩))
          rcases hneg w0 with hg | hg
          · exact hg
          · rcases (guardA_exit hg).2 with ⟨_, h2⟩ | h2
            · rw [x3] at h2; exact absurd h2 (by decide)
            · exact absurd h2 (by decide)
      · subst x1 x2
        refine .inr (.inl ⟨e, x0, fun q => x3 (.inl q), fun q => x3 (.inr q), rfl, g4.trans x4, ?_⟩)
        rcases hneg w0 with hg | hg
        · exact .inl hg
        · right
          obtain ⟨h1, h2⟩ := guardA_exit hg
          refine ⟨hg, ?_, by rw [← q6]; exact h1⟩
          rcases h2 with ⟨_, h2⟩ | h2
          · rw [← x4]; exact h2
          · exact absurd h2 (by decide)
      · subst x2
        exact .inl ⟨d, x0, x1, guardA_nonneg _ (by omega)⟩

/-- a read after an interruption, then data, more of it than asked for; end of file; an error -/
example : ∃ w', read 2 MAX [{ sys := .err sysEINTR }, { sys := .err sysEAGAIN }, { sys := .data [7, 8, 9] }] {} = some (.ret 2, [7, 8], w') ∧ w'.inp = [7, 8] := ⟨_, rfl, rfl⟩
example : ∃ w', read 2 MAX [{ sys := .data [] }] {} = some (.ret 0, [], w') := ⟨_, rfl⟩
example : ∃ w', read 2 MAX [{ sys := .err 104 }] {} = some (.ret (-1), [], w') ∧ w'.errno = 104 := ⟨_, rfl, rfl⟩
/-- canceled during the wait but with data available: the data is returned, and the cancelation is kept for the next call (inline cancelation) -/
example : ∃ w', read 2 MAX [{ sys := .data [7], cancel := true }] { async := false } = some (.ret 1, [7], w') ∧ w'.canceled = true := ⟨_, rfl, rfl⟩

end Neco.Io
