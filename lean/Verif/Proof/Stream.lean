import Verif.Proof.Io2

/-! # Lemmas: streams -/

namespace Neco.Io
open Neco.Err

/-- a stream that could be set up has room for its buffer -/
theorem fits_of_make {n : Nat} {s : Str} (hn : n < 2 ^ 64) (h : make true n = some s) : Fits n := by
  unfold make at h
  unfold Fits
  simp only [if_true] at h
  by_cases hz : n = 0
  · omega
  · rw [if_neg hz] at h
    split at h
    · cases h
    · rename_i hm
      simp only [HEADER] at hm
      by_cases hf : 72 + n < 2 ^ 64
      · exact hf
      · exfalso; rw [Nat.mod_eq_sub_mod (by omega), Nat.mod_eq_of_lt (by omega)] at hm; omega

theorem inv_make' {buffered : Bool} {n : Nat} {s : Str} (hn : n < 2 ^ 64) (h : make buffered n = some s) : Inv s ∧ rdBuf s = [] ∧ past s = [] ∧ wrBuf s = [] ∧ s.buffered = buffered := by
  cases buffered with
  | true => exact inv_make (fits_of_make hn h) h
  | false =>
    have : make false 0 = some s := h
    exact inv_make (by unfold Fits; omega) this

/-- what a call that reads does: the bytes `bs` go to the user -/
structure Rd (s s' : S) (bs : List UInt8) : Prop where
  inv : Inv s'.st
  out : s'.w.out = s.w.out
  torn : s'.w.torn = s.w.torn
  wr : wrBuf s'.st = wrBuf s.st
  buf : s'.st.buffered = s.st.buffered
  inp : ∃ new, s'.w.inp = s.w.inp ++ new ∧ rdBuf s.st ++ new = bs ++ rdBuf s'.st
  past : ∃ x, past s.st ++ bs = x ++ past s'.st

theorem Rd.trans {s s1 s2 : S} {a b : List UInt8} (h1 : Rd s s1 a) (h2 : Rd s1 s2 b) : Rd s s2 (a ++ b) := by
  obtain ⟨n1, p1, p2⟩ := h1.inp
  obtain ⟨n2, p3, p4⟩ := h2.inp
  obtain ⟨x1, q1⟩ := h1.past
  obtain ⟨x2, q2⟩ := h2.past
  refine ⟨h2.inv, h2.out.trans h1.out, h2.torn.trans h1.torn, h2.wr.trans h1.wr, h2.buf.trans h1.buf, ⟨n1 ++ n2, ?_, ?_⟩, ⟨x1 ++ x2, ?_⟩⟩
  · rw [p3, p1, List.append_assoc]
  · rw [← List.append_assoc, p2, List.append_assoc, p4, List.append_assoc]
  · rw [← List.append_assoc, q1, List.append_assoc, q2, List.append_assoc]

theorem Rd.of_w {s s' : S} {bs : List UInt8} (h : Rd s s' bs) {w : W} (h1 : w.inp = s'.w.inp) (h2 : w.out = s'.w.out) (h3 : w.torn = s'.w.torn) : Rd s { s' with w := w } bs :=
  ⟨h.inv, h2.trans h.out, h3.trans h.torn, h.wr, h.buf, by obtain ⟨n, a, b⟩ := h.inp; exact ⟨n, h1.trans a, b⟩, h.past⟩

theorem Rd.refl {s : S} (h : Inv s.st) : Rd s s [] := ⟨h, rfl, rfl, rfl, rfl, ⟨[], by simp, by simp⟩, ⟨[], by simp⟩⟩

theorem view_eq {s s' : Str} (h : view s' = view s) : past s' = past s ∧ rdBuf s' = rdBuf s ∧ wrBuf s' = wrBuf s ∧ s'.buffered = s.buffered := by
  simpa [view] using h

theorem rdBuf_length {s : Str} (h : Inv s) : (rdBuf s).length = s.rdLen := by
  unfold rdBuf; split
  · rename_i e; simp [(h.rd0 e).2]
  · simp
theorem wrBuf_length {s : Str} (h : Inv s) : (wrBuf s).length = s.wrLen := by
  unfold wrBuf; split
  · rename_i e; simp [h.wr0 e]
  · simp
theorem past_length {s : Str} (h : Inv s) : (past s).length = s.rdPos := by
  unfold past; split
  · rename_i e; simp [(h.rd0 e).1]
  · simp

theorem unbuf {s : Str} (h : Inv s) (hb : s.buffered = false) : rdBuf s = [] ∧ past s = [] ∧ wrBuf s = [] := by
  obtain ⟨a, b, c⟩ := h.unb hb
  simp [rdBuf, past, wrBuf, a, b]

/-- what `stream_read_dl` does -/
theorem streamRead0_spec {s s' : S} {n : Nat} {dl : Int} {ok : Bool} {ts : List (Turn SysR)} {r : Res} {bs : List UInt8} (hi : Inv s.st) (h : streamRead0 s n dl ok ts = some (r, bs, s')) :
    Rd s s' bs ∧ bs.length ≤ n ∧ (∀ m, r = .ret m → (m < 0 ∧ bs = []) ∨ (m = bs.length ∧ (bs = [] → 0 < n → s'.w.lasterr = 0))) ∧ (r = .exit → bs = []) ∧
      (s.st.buffered = true → bs ≠ [] → ∃ x, past s'.st = x ++ bs) := by
  unfold streamRead0 at h
  split at h
  · rename_i hb
    split at h
    · cases h
    · rename_i r0 bs0 w0 hr
      simp only [Option.some.injEq, Prod.mk.injEq] at h
      obtain ⟨rfl, rfl, rfl⟩ := h
      obtain ⟨q1, q2, q3, q4, q5, q6⟩ := read_spec hr
      obtain ⟨u1, u2, u3⟩ := unbuf hi hb
      refine ⟨⟨hi, q2, q3, rfl, rfl, ⟨bs0, q1, by simp [u1]⟩, ⟨bs0, by simp [u2]⟩⟩, q4, fun m e => ?_, q6, fun e => by rw [hb] at e; cases e⟩
      rcases q5 m e with ⟨q, q'⟩ | ⟨q, q'⟩
      · exact .inl ⟨by omega, q'⟩
      · exact .inr ⟨q, fun _ _ => q'⟩
  · rename_i hb
    have hb : s.st.buffered = true := by simpa using hb
    obtain ⟨e1, e2, e3, e4, e5⟩ := inv_ensureRd hi hb ok
    obtain ⟨v1, v2, v3, v4⟩ := view_eq e2
    dsimp only at h
    split at h
    · rename_i hno
      simp only [Option.some.injEq, Prod.mk.injEq] at h
      obtain ⟨rfl, rfl, rfl⟩ := h
      refine ⟨⟨e1, rfl, rfl, v3, v4, ⟨[], by simp, by simp [v2]⟩, ⟨[], by simp [v1]⟩⟩, by simp, fun m e => .inl ⟨by injection e with e; rw [← e]; decide, rfl⟩, fun _ => rfl, fun _ hz => absurd rfl hz⟩
    · rename_i hno
      have hno : (ensureRd s.st ok).1 = true := by simpa using hno
      split at h
      · rename_i h0
        have hl0 : rdBuf s.st = [] := List.length_eq_zero_iff.mp (by rw [rdBuf_length hi, ← e5]; exact h0)
        split at h
        · cases h
        · rename_i bs0 w0 hr
          simp only [Option.some.injEq, Prod.mk.injEq] at h
          obtain ⟨rfl, rfl, rfl⟩ := h
          obtain ⟨q1, q2, q3, q4, q5, q6⟩ := read_spec hr
          have hz := q6 rfl
          subst hz
          refine ⟨⟨e1, q2, q3, v3, v4, ⟨[], q1, by simp [v2]⟩, ⟨[], by simp [v1]⟩⟩, by simp, fun m e => (by cases e), fun _ => rfl, fun _ hz => absurd rfl hz⟩
        · rename_i m0 bs0 w0 hr
          obtain ⟨q1, q2, q3, q4, q5, q6⟩ := read_spec hr
          split at h
          · rename_i hm
            simp only [Option.some.injEq, Prod.mk.injEq] at h
            obtain ⟨rfl, rfl, rfl⟩ := h
            have hz : bs0 = [] := by
              rcases q5 m0 rfl with ⟨_, q⟩ | ⟨q, _⟩
              · exact q
              · omega
            subst hz
            refine ⟨⟨e1, q2, q3, v3, v4, ⟨[], q1, by simp [v2]⟩, ⟨[], by simp [v1]⟩⟩, by simp, fun m e => .inl ⟨?_, rfl⟩, fun _ => rfl, fun _ hz => absurd rfl hz⟩
            · injection e with e; rw [← e]; unfold fromSys; (repeat' split) <;> decide
          · rename_i hm
            rcases q5 m0 rfl with ⟨q, _⟩ | ⟨q, q'⟩
            · exact absurd q hm
            · subst q
              simp only [Int.toNat_natCast] at h
              have f := fill_spec e1 (e3 hno) q4
              obtain ⟨f1, f2⟩ := f
              generalize hst : ({ store (ensureRd s.st ok).2 (ensureRd s.st ok).2.rdAt 0 bs0 with rdLen := bs0.length, rdPos := 0 } : Str) = st at h f1 f2
              obtain ⟨t1, t2, t3⟩ := takeRd_spec f1 n
              simp only [view, Prod.mk.injEq] at f2 t3
              obtain ⟨f2, f3, f4, f5⟩ := f2
              obtain ⟨t3, t4, t5, t6⟩ := t3
              simp only [Option.some.injEq, Prod.mk.injEq] at h
              obtain ⟨rfl, rfl, rfl⟩ := h
              refine ⟨⟨t1, q2, q3, by rw [t5, f4, v3], by rw [t6, f5, v4], ⟨bs0, q1, ?_⟩, ⟨past s.st, ?_⟩⟩, ?_, fun m e => .inr ⟨by injection e with e; exact e.symm, fun _ _ => q'⟩, fun e => (by cases e), fun _ _ => ⟨_, by rw [t3, t2]⟩⟩
              · rw [hl0, List.nil_append, t2, t4, f3, List.take_append_drop]
              · rw [t3, f2, List.nil_append, t2]
              · rw [t2, List.length_take]; omega
      · rename_i h0
        obtain ⟨t1, t2, t3⟩ := takeRd_spec e1 n
        simp only [view, Prod.mk.injEq] at t3
        obtain ⟨t3, t4, t5, t6⟩ := t3
        simp only [Option.some.injEq, Prod.mk.injEq] at h
        obtain ⟨rfl, rfl, rfl⟩ := h
        refine ⟨⟨t1, rfl, rfl, by rw [t5, v3], by rw [t6, v4], ⟨[], by simp, ?_⟩, ⟨[], ?_⟩⟩, ?_, fun m e => .inr ⟨by injection e with e; exact e.symm, fun hz hn => ?_⟩, fun e => (by cases e), fun _ _ => ⟨_, by rw [t3, t2]⟩⟩
        · rw [List.append_nil, t2, t4, List.take_append_drop, v2]
        · rw [t3, v1, List.nil_append, t2]
        · rw [t2, List.length_take]; omega
        · exfalso
          rw [t2] at hz
          have := congrArg List.length hz
          rw [List.length_take, rdBuf_length e1] at this
          simp only [List.length_nil] at this
          omega

/-- what `neco_stream_read_dl` does -/
theorem streamRead_spec {s s' : S} {n : Nat} {dl : Int} {ok : Bool} {ts : List (Turn SysR)} {r : Res} {bs : List UInt8} (hi : Inv s.st) (h : streamRead s n dl ok ts = some (r, bs, s')) :
    Rd s s' bs ∧ bs.length ≤ n ∧ (∀ m, r = .ret m → (m < 0 ∧ bs = []) ∨ (m = bs.length ∧ (0 < n → bs ≠ []))) ∧ (r = .exit → bs = []) ∧
      (s.st.buffered = true → bs ≠ [] → ∃ x, past s'.st = x ++ bs) := by
  unfold streamRead at h
  split at h
  · cases h
  · rename_i r0 bs0 s0 h0
    obtain ⟨q1, q2, q3, q4, q5⟩ := streamRead0_spec hi h0
    simp only [Option.some.injEq, Prod.mk.injEq] at h
    obtain ⟨rfl, rfl, rfl⟩ := h
    rw [guardE_r]
    obtain ⟨g1, g2, g3, g4⟩ := guardE_w (if r0 = .ret 0 ∧ n > 0 ∧ s0.w.lasterr = OK then .ret EOF else r0) s0.w
    refine ⟨q1.of_w g1 g2 g3, q2, fun m e => ?_, fun e => ?_, q5⟩
    · split at e
      · rename_i hx
        injection e with e
        refine .inl ⟨by rw [← e]; decide, ?_⟩
        rcases q3 0 hx.1 with ⟨q, _⟩ | ⟨q, _⟩
        · omega
        · exact List.length_eq_zero_iff.mp (by omega)
      · rename_i hx
        rcases q3 m e with q | ⟨q, q'⟩
        · exact .inl q
        · refine .inr ⟨q, fun hn hz => hx ⟨by rw [e, q, hz]; rfl, hn, q' hz hn⟩⟩
    · split at e
      · cases e
      · exact q4 e

theorem readFullLoop_spec {dl : Int} {ok : Bool} : ∀ {tss : List (List (Turn SysR))} {n : Nat} {got : List UInt8} {s s' : S} {r : Res} {bs : List UInt8}, Inv s.st → readFullLoop dl ok tss n got s = some (r, bs, s') →
    ∃ more, bs = got ++ more ∧ more.length ≤ n ∧ Rd s s' more ∧ (∀ m, r = .ret m → (m < 0 ∧ bs = []) ∨ m = bs.length)
  | [], n, got, s, s', r, bs, _, h => by simp [readFullLoop] at h
  | ts :: tss, n, got, s, s', r, bs, hi, h => by
    unfold readFullLoop at h
    split at h
    · cases h
    · rename_i bs0 s0 h0
      obtain ⟨q1, q2, q3, q4, q5⟩ := streamRead_spec hi h0
      simp only [Option.some.injEq, Prod.mk.injEq] at h
      obtain ⟨rfl, rfl, rfl⟩ := h
      exact ⟨bs0, rfl, q2, q1, fun m e => (by cases e)⟩
    · rename_i m0 bs0 s0 h0
      obtain ⟨q1, q2, q3, q4, q5⟩ := streamRead_spec hi h0
      split at h
      · rename_i hm
        have hz : bs0 = [] := by
          rcases q3 m0 rfl with ⟨_, q⟩ | ⟨q, _⟩
          · exact q
          · exact List.length_eq_zero_iff.mp (by omega)
        subst hz
        simp only [Option.some.injEq, Prod.mk.injEq] at h
        obtain ⟨rfl, rfl, rfl⟩ := h
        refine ⟨[], rfl, Nat.zero_le _, q1, fun m e => ?_⟩
        split at e
        · rename_i hg
          injection e with e
          rcases q3 m0 rfl with ⟨q, _⟩ | ⟨q, _⟩
          · exact .inl ⟨by omega, by simp [hg]⟩
          · exact .inr (by rw [← e, q]; simp [hg])
        · injection e with e
          exact .inr (by rw [← e]; simp)
      · rename_i hm
        have hl : m0 = bs0.length := by
          rcases q3 m0 rfl with ⟨q, _⟩ | ⟨q, _⟩
          · omega
          · exact q
        dsimp only at h
        split at h
        · obtain ⟨more, p1, p2, p3, p4⟩ := readFullLoop_spec q1.inv h
          refine ⟨bs0 ++ more, by rw [p1, List.append_assoc], ?_, q1.trans p3, p4⟩
          rw [List.length_append]; omega
        · simp only [Option.some.injEq, Prod.mk.injEq] at h
          obtain ⟨rfl, rfl, rfl⟩ := h
          exact ⟨bs0, rfl, q2, q1, fun m e => .inr (by injection e with e; exact e.symm)⟩

theorem readFull_spec {s s' : S} {n : Nat} {dl : Int} {ok : Bool} {tss : List (List (Turn SysR))} {r : Res} {bs : List UInt8} (hi : Inv s.st) (h : readFull s n dl ok tss = some (r, bs, s')) :
    Rd s s' bs ∧ bs.length ≤ n ∧ (∀ m, r = .ret m → (m < 0 ∧ bs = []) ∨ m = bs.length) := by
  unfold readFull at h
  split at h
  · cases h
  · rename_i r0 bs0 s0 h0
    obtain ⟨more, p1, p2, p3, p4⟩ := readFullLoop_spec hi h0
    simp only [Option.some.injEq, Prod.mk.injEq] at h
    obtain ⟨rfl, rfl, rfl⟩ := h
    rw [guardE_r]
    obtain ⟨g1, g2, g3, g4⟩ := guardE_w r0 s0.w
    simp only [List.nil_append] at p1
    rw [p1]
    exact ⟨p3.of_w g1 g2 g3, p2, by rw [p1] at p4; exact p4⟩

/-- reading a byte that is in the buffer -/
theorem fast_spec {s : S} (hi : Inv s.st) (hl : 0 < s.st.rdLen) {w : W} (h1 : w.inp = s.w.inp) (h2 : w.out = s.w.out) (h3 : w.torn = s.w.torn) :
    Rd s { w := w, st := { (load s.st s.st.rdAt s.st.rdPos 1).2 with rdPos := s.st.rdPos + 1, rdLen := s.st.rdLen - 1 } } (load s.st s.st.rdAt s.st.rdPos 1).1 ∧ (load s.st s.st.rdAt s.st.rdPos 1).1.length = 1 ∧
    (takeRd s.st 1) = ((load s.st s.st.rdAt s.st.rdPos 1).1, { (load s.st s.st.rdAt s.st.rdPos 1).2 with rdPos := s.st.rdPos + 1, rdLen := s.st.rdLen - 1 }) := by
  have ht : (takeRd s.st 1) = ((load s.st s.st.rdAt s.st.rdPos 1).1, { (load s.st s.st.rdAt s.st.rdPos 1).2 with rdPos := s.st.rdPos + 1, rdLen := s.st.rdLen - 1 }) := by
    unfold takeRd; rw [if_neg (show ¬ s.st.rdLen < 1 by omega)]
  obtain ⟨t1, t2, t3⟩ := takeRd_spec hi 1
  rw [ht] at t1 t2 t3
  simp only [view, Prod.mk.injEq] at t1 t2 t3
  obtain ⟨t3, t4, t5, t6⟩ := t3
  refine ⟨⟨t1, h2, h3, t5, t6, ⟨[], by simp [h1], ?_⟩, ⟨[], ?_⟩⟩, ?_, ht⟩
  · rw [List.append_nil, t2]; dsimp only; rw [t4, List.take_append_drop]
  · dsimp only; rw [t3, List.nil_append, t2]
  · rw [t2, List.length_take, rdBuf_length hi]; omega

theorem slow_spec {s s' : S} {dl : Int} {ok : Bool} {ts : List (Turn SysR)} {r : Res} {bs : List UInt8} (hi : Inv s.st) (h : readByte.slow dl ok ts s = some (r, bs, s')) :
    Rd s s' bs ∧ (∀ m, r = .ret m → (m < 0 ∧ bs = []) ∨ ∃ b, bs = [b] ∧ m = b.toNat) ∧ (r = .exit → bs = []) ∧
      (s.st.buffered = true → bs ≠ [] → ∃ x, past s'.st = x ++ bs) := by
  unfold readByte.slow at h
  split at h
  · cases h
  · rename_i bs0 s0 h0
    simp only [Option.some.injEq, Prod.mk.injEq] at h
    obtain ⟨rfl, rfl, rfl⟩ := h
    obtain ⟨q1, q2, q3, q4, q5⟩ := streamRead_spec hi h0
    exact ⟨q1, fun m e => (by cases e), q4, q5⟩
  · rename_i m0 bs0 s0 h0
    obtain ⟨q1, q2, q3, q4, q5⟩ := streamRead_spec hi h0
    split at h
    · rename_i hm
      simp only [Option.some.injEq, Prod.mk.injEq] at h
      obtain ⟨rfl, rfl, rfl⟩ := h
      refine ⟨q1, fun m e => ?_, q4, q5⟩
      rcases q3 m e with q | ⟨q, q'⟩
      · exact .inl q
      · exfalso
        injection e with e
        have := List.length_pos_iff.mpr (q' (by omega))
        omega
    · rename_i hm
      have hm : m0 = 1 := by simpa using hm
      simp only [Option.some.injEq, Prod.mk.injEq] at h
      obtain ⟨rfl, rfl, rfl⟩ := h
      refine ⟨q1, fun m e => .inr ?_, fun e => (by cases e), q5⟩
      have hl : bs0.length = 1 := by
        rcases q3 m0 rfl with ⟨q, _⟩ | ⟨q, _⟩ <;> omega
      obtain ⟨b, rfl⟩ := List.length_eq_one_iff.mp hl
      exact ⟨b, rfl, by injection e with e; rw [← e]; rfl⟩

theorem readByte_spec {s s' : S} {dl now : Int} {ok : Bool} {ts : List (Turn SysR)} {r : Res} {bs : List UInt8} (hi : Inv s.st) (h : readByte s dl now ok ts = some (r, bs, s')) :
    Rd s s' bs ∧ (∀ m, r = .ret m → (m < 0 ∧ bs = []) ∨ ∃ b, bs = [b] ∧ m = b.toNat) ∧ (r = .exit → bs = []) ∧
      (s.st.buffered = true → bs ≠ [] → ∃ x, past s'.st = x ++ bs) := by
  obtain ⟨c1, c2, c3, c4, c5⟩ := checkdl_w s.w dl now
  unfold readByte at h
  split at h
  · rename_i hb
    dsimp only at h
    split at h
    · simp only [Option.some.injEq, Prod.mk.injEq] at h
      obtain ⟨rfl, rfl, rfl⟩ := h
      obtain ⟨f1, f2, f3⟩ := fast_spec hi hb.2 c1 c2 c3
      refine ⟨f1, fun m e => .inr ?_, fun e => (by cases e), fun _ _ => ?_⟩
      rotate_left
      · obtain ⟨t1, t2, t3⟩ := takeRd_spec hi 1
        rw [f3] at t2 t3
        simp only [view, Prod.mk.injEq] at t2 t3
        exact ⟨_, by dsimp only; rw [t3.1, t2]⟩
      obtain ⟨b, hb⟩ := List.length_eq_one_iff.mp f2
      rw [hb] at e ⊢
      exact ⟨b, rfl, by injection e with e; rw [← e]; rfl⟩
    · have h' := slow_spec (s := { s with w := (checkdl s.w dl now).2 }) hi h
      refine ⟨?_, h'.2⟩
      have := (Rd.refl hi).of_w (w := (checkdl s.w dl now).2) c1 c2 c3
      exact this.trans h'.1
  · exact slow_spec hi h

theorem unread_spec {s : S} (hi : Inv s.st) : Inv (unread s).2.st ∧ (unread s).2.w.inp = s.w.inp ∧ (unread s).2.w.out = s.w.out ∧ (unread s).2.w.torn = s.w.torn ∧ wrBuf (unread s).2.st = wrBuf s.st ∧ (unread s).2.st.buffered = s.st.buffered ∧
    (((unread s).1 = UNREADFAIL ∧ (unread s).2.st = s.st ∧ past s.st = []) ∨
     ((unread s).1 = OK ∧ s.st.buffered = true ∧ ∃ p b, past s.st = p ++ [b] ∧ past (unread s).2.st = p ∧ rdBuf (unread s).2.st = b :: rdBuf s.st)) := by
  unfold unread
  split
  · rename_i hb
    refine ⟨hi, rfl, rfl, rfl, rfl, rfl, .inl ⟨rfl, rfl, ?_⟩⟩
    rcases hb with hb | hb
    · exact (unbuf hi hb).2.1
    · exact List.length_eq_zero_iff.mp ((past_length hi).trans hb)
  · rename_i hb
    have hb1 : s.st.buffered = true := by simp at hb; exact hb.1
    have hb2 : 0 < s.st.rdPos := by simp at hb; omega
    have hc := hi.rdc
    obtain ⟨b, hr⟩ : ∃ b, s.st.rdAt = some b := by
      cases e : s.st.rdAt with
      | none => have := (hi.rd0 e).1; omega
      | some b => exact ⟨b, rfl⟩
    refine ⟨⟨hi.flt, hi.room, hi.cap, ?_, ?_, hi.wr0, hi.wrc, hi.ne, hi.hr, hi.hw, hi.unb, hi.heap⟩, rfl, rfl, rfl, rfl, rfl, .inr ⟨rfl, hb1, cells (s.st.mem b) 0 (s.st.rdPos - 1), s.st.mem b (s.st.rdPos - 1), ?_, ?_, ?_⟩⟩
    · intro e; rw [hr] at e; cases e
    · dsimp only; omega
    · simp only [past, hr]
      have h2 := cells_add (s.st.mem b) 0 (s.st.rdPos - 1) 1
      rw [Nat.sub_add_cancel hb2] at h2
      rw [h2]; simp [cells]
    · simp only [past, hr]
    · simp only [rdBuf, hr]
      have h2 := cells_add (s.st.mem b) (s.st.rdPos - 1) 1 s.st.rdLen
      rw [Nat.sub_add_cancel hb2, Nat.add_comm] at h2
      rw [h2]; simp [cells]

/-! ## Writing -/

/-- what a call that writes does: `add` is taken from the user -/
structure Wr (s s' : S) (add : List UInt8) : Prop where
  inv : Inv s'.st
  inp : s'.w.inp = s.w.inp
  rd : rdBuf s'.st = rdBuf s.st
  past : past s'.st = past s.st
  buf : s'.st.buffered = s.st.buffered
  torn : s'.w.torn = false → s.w.torn = false
  out : s'.w.torn = false → s'.w.out ++ wrBuf s'.st = s.w.out ++ wrBuf s.st ++ add

theorem Wr.trans {s s1 s2 : S} {a b : List UInt8} (h1 : Wr s s1 a) (h2 : Wr s1 s2 b) : Wr s s2 (a ++ b) :=
  ⟨h2.inv, h2.inp.trans h1.inp, h2.rd.trans h1.rd, h2.past.trans h1.past, h2.buf.trans h1.buf, fun h => h1.torn (h2.torn h), fun h => by rw [h2.out h, h1.out (h2.torn h), List.append_assoc]⟩

theorem Wr.of_w {s s' : S} {a : List UInt8} (h : Wr s s' a) {w : W} (h1 : w.inp = s'.w.inp) (h2 : w.out = s'.w.out) (h3 : w.torn = s'.w.torn) : Wr s { s' with w := w } a :=
  ⟨h.inv, h1.trans h.inp, h.rd, h.past, h.buf, fun e => h.torn (h3.symm.trans e), fun e => by dsimp only; rw [h2]; exact h.out (h3.symm.trans e)⟩

/-- nothing disturbed this call -/
def Quiet (dl : Int) (ts : List (Turn SysW)) : Prop := dl = MAX ∧ ∀ t ∈ ts, Calm t

/-- delivered bytes do not change in a write -/
theorem writeLoop_inp {dl : Int} : ∀ {ts : List (Turn SysW)} {d : List UInt8} {n : Nat} {w w' : W} {r : Res}, writeLoop dl ts d n w = some (r, w') → w'.inp = w.inp ∧ (∀ m, r = .ret m → -1 ≤ m)
  | [], d, n, w, w', r, h => by simp [writeLoop] at h
  | t :: ts, d, n, w, w', r, h => by
    unfold writeLoop at h
    dsimp only at h
    obtain ⟨c1, c2, c3, c4, c5⟩ := checkdl_w w dl t.now
    (repeat' split at h) <;> first
      | (simp only [Option.some.injEq, Prod.mk.injEq] at h; obtain ⟨rfl, rfl⟩ := h; exact ⟨by simp [pass, c1], fun m e => by first | (cases e; done) | (injection e; omega)⟩)
      | (have := writeLoop_inp h; exact ⟨by rw [this.1]; simp [pass, c1], this.2⟩)

theorem write_inp {d : List UInt8} {dl : Int} {ts : List (Turn SysW)} {w w' : W} {r : Res} (h : write d dl ts w = some (r, w')) : w'.inp = w.inp ∧ ∀ m, r = .ret m → -1 ≤ m := by
  unfold write at h
  split at h
  · cases h
  · rename_i r0 w0 hw
    obtain ⟨g1, g2, g3, g4, g5, g6, g7⟩ := guardA_w r0 w0
    obtain ⟨q1, q2⟩ := writeLoop_inp hw
    dsimp only at h
    split at h
    · simp only [Option.some.injEq, Prod.mk.injEq] at h
      obtain ⟨rfl, rfl⟩ := h; exact ⟨g1.trans q1, fun m e => (by cases e)⟩
    · rename_i m hx
      simp only [Option.some.injEq, Prod.mk.injEq] at h
      obtain ⟨rfl, rfl⟩ := h
      have := q2 m (guardA_ret hx)
      refine ⟨?_, fun m' e => by injection e; omega⟩
      split <;> exact g1.trans q1

/-- what `stream_flush_dl` does -/
theorem flush0_spec {s s' : S} {dl now : Int} {ts : List (Turn SysW)} {r : Res} (hi : Inv s.st) (h : flush0 s dl now ts = some (r, s')) :
    Wr s s' [] ∧ (r = .ret OK → wrBuf s'.st = []) ∧ (∀ m, r = .ret m → m ≤ 0) ∧ (Quiet dl ts → s.w.torn = false → s'.w.torn = false) ∧ s'.st.wrAt = s.st.wrAt ∧ s'.st.cap = s.st.cap := by
  unfold flush0 at h
  split at h
  · rename_i hb
    obtain ⟨c1, c2, c3, c4, c5⟩ := checkdl_w s.w dl now
    simp only [Option.some.injEq, Prod.mk.injEq] at h
    obtain ⟨rfl, rfl⟩ := h
    refine ⟨⟨hi, c1, rfl, rfl, rfl, fun e => c3.symm.trans e, fun _ => by simp [c2]⟩, fun _ => (unbuf hi hb).2.2, fun m e => ?_, fun _ e => c3.trans e, rfl, rfl⟩
    injection e with e
    by_cases hk : (checkdl s.w dl now).1 = OK
    · rw [← e, hk]; decide
    · rcases checkdl_no hk with ⟨_, k⟩ | ⟨_, _, k⟩ <;> (rw [← e, k]; decide)
  · rename_i hb
    have hc := hi.wrc
    have hl2 : (load s.st s.st.wrAt 0 s.st.wrLen).2 = s.st := load_in hi (fun e => hi.wr0 e) (by omega)
    have hl1 : (load s.st s.st.wrAt 0 s.st.wrLen).1 = wrBuf s.st := by
      unfold load wrBuf; cases s.st.wrAt <;> rfl
    dsimp only at h
    rw [hl2, hl1] at h
    have neg : ∀ m, fromSys m ≤ 0 := by intro m; unfold fromSys; (repeat' split) <;> decide
    have negS : ∀ m, fromSys m ≠ OK := by intro m; unfold fromSys; (repeat' split) <;> decide
    split at h
    · cases h
    · rename_i w0 hw
      simp only [Option.some.injEq, Prod.mk.injEq] at h
      obtain ⟨rfl, rfl⟩ := h
      obtain ⟨t1, t2⟩ := write_torn hw
      refine ⟨⟨hi, (write_inp hw).1, rfl, rfl, rfl, t1, fun ht => ?_⟩, fun e => (by cases e), fun m e => (by cases e), fun q e => t2 q.1 q.2 e, rfl, rfl⟩
      obtain ⟨k, q1, q2, q3, q4, q5, q6⟩ := write_spec hw (.inr ht)
      rw [q5 ht (.inr rfl)] at q2
      simp only [q2, List.take_zero, List.append_nil]
    · rename_i n w0 hw
      obtain ⟨t1, t2⟩ := write_torn hw
      have hinp := (write_inp hw).1
      have hge := (write_inp hw).2 n rfl
      split at h
      · rename_i hn
        have hout : w0.torn = false → w0.out = s.w.out := by
          intro ht
          obtain ⟨k, q1, q2, q3, q4, q5, q6⟩ := write_spec hw (.inr ht)
          have hk : k = 0 := by
            rcases q3 n rfl with q | q
            · exact q5 ht (.inl (by rw [q]))
            · omega
          rw [hk] at q2
          simpa using q2
        split at h
        · rename_i hz
          simp only [Option.some.injEq, Prod.mk.injEq] at h
          obtain ⟨rfl, rfl⟩ := h
          refine ⟨⟨hi, hinp, rfl, rfl, rfl, t1, fun ht => by simp [hout ht]⟩, fun _ => List.length_eq_zero_iff.mp ((wrBuf_length hi).trans hz.2), fun m e => by injection e with e; rw [← e]; decide, fun q e => t2 q.1 q.2 e, rfl, rfl⟩
        · simp only [Option.some.injEq, Prod.mk.injEq] at h
          obtain ⟨rfl, rfl⟩ := h
          refine ⟨⟨hi, hinp, rfl, rfl, rfl, t1, fun ht => by simp [hout ht]⟩, fun e => by injection e with e; exact absurd e (negS _), fun m e => by injection e with e; rw [← e]; exact neg _, fun q e => t2 q.1 q.2 e, rfl, rfl⟩
      · rename_i hn
        split at h
        · rename_i hlt
          simp only [Option.some.injEq, Prod.mk.injEq] at h
          obtain ⟨rfl, rfl⟩ := h
          obtain ⟨m1, m2⟩ := move_spec hi (k := n.toNat) (by omega)
          simp only [view, Prod.mk.injEq] at m2
          obtain ⟨m2, m3, m4, m5⟩ := m2
          have hm : (load s.st s.st.wrAt n.toNat (s.st.wrLen - n.toNat)).2 = s.st := load_in hi (fun e => by have := hi.wr0 e; omega) (by omega)
          refine ⟨⟨m1, hinp, m3, m2, m5, t1, fun ht => ?_⟩, fun e => by injection e with e; exact absurd e (by decide), fun m e => by injection e with e; rw [← e]; decide, fun q e => t2 q.1 q.2 e, by simp only [store, hm], by simp only [store, hm]⟩
          obtain ⟨k, q1, q2, q3, q4, q5, q6⟩ := write_spec hw (.inr ht)
          have hk : n.toNat = k := by
            rcases q3 n rfl with q | q <;> omega
          dsimp only
          rw [m4, q2, hk, List.append_assoc, List.take_append_drop, List.append_nil]
        · rename_i hlt
          simp only [Option.some.injEq, Prod.mk.injEq] at h
          obtain ⟨rfl, rfl⟩ := h
          obtain ⟨m1, m2⟩ := empty_spec hi
          simp only [view, Prod.mk.injEq] at m2
          obtain ⟨m2, m3, m4, m5⟩ := m2
          refine ⟨⟨m1, hinp, m3, m2, rfl, t1, fun ht => ?_⟩, fun _ => m4, fun m e => by injection e with e; rw [← e]; decide, fun q e => t2 q.1 q.2 e, rfl, rfl⟩
          obtain ⟨k, q1, q2, q3, q4, q5, q6⟩ := write_spec hw (.inr ht)
          have hlen := wrBuf_length hi
          have hk : k = (wrBuf s.st).length := by
            rcases q3 n rfl with q | q <;> omega
          dsimp only
          rw [m4, q2, hk, List.take_length, List.append_nil]

theorem flush_spec {s s' : S} {dl now : Int} {ts : List (Turn SysW)} {r : Res} (hi : Inv s.st) (h : flush s dl now ts = some (r, s')) :
    Wr s s' [] ∧ (r = .ret OK → wrBuf s'.st = []) ∧ (∀ m, r = .ret m → m ≤ 0) ∧ (Quiet dl ts → s.w.torn = false → s'.w.torn = false) ∧ s'.st.wrAt = s.st.wrAt ∧ s'.st.cap = s.st.cap := by
  unfold flush at h
  split at h
  · cases h
  · rename_i r0 s0 h0
    simp only [Option.some.injEq, Prod.mk.injEq] at h
    obtain ⟨rfl, rfl⟩ := h
    obtain ⟨g1, g2, g3, g4⟩ := guardA_w r0 s0.w
    obtain ⟨q1, q2, q3, q4, q5, q6⟩ := flush0_spec hi h0
    exact ⟨q1.of_w g1 g2 g3, fun e => q2 (guardA_ret e), fun m e => q3 m (guardA_ret e), fun a b => g3.trans (q4 a b), q5, q6⟩

/-- what the loop of `stream_write_dl` does -/
theorem streamWriteLoop_spec {dl now : Int} : ∀ {tss : List (List (Turn SysW))} {d : List UInt8} {n k : Nat} {s s' : S} {r : Res}, Inv s.st → s.st.wrAt ≠ none → streamWriteLoop dl now tss d n s = some (r, k, s') →
    n ≤ k ∧ k - n ≤ d.length ∧ Wr s s' (d.take (k - n)) ∧ (∀ m, r = .ret m → m = k ∨ (m < 0 ∧ k = 0)) ∧ ((∀ ts ∈ tss, Quiet dl ts) → s.w.torn = false → s'.w.torn = false)
  | tss, d, n, k, s, s', r, hi, hne, h => by
    unfold streamWriteLoop at h
    have self : Wr s s [] := ⟨hi, rfl, rfl, rfl, rfl, id, fun _ => by simp⟩
    split at h
    · simp only [Option.some.injEq, Prod.mk.injEq] at h
      obtain ⟨rfl, rfl, rfl⟩ := h
      exact ⟨Nat.le_refl _, by omega, by simpa using self, fun m e => .inl (by injection e with e; exact e.symm), fun _ e => e⟩
    · split at h
      · cases h
      · rename_i ts tss
        have go : ∀ {s1 : S}, Wr s s1 [] → s1.st.wrAt ≠ none → ((∀ u ∈ ts :: tss, Quiet dl u) → s.w.torn = false → s1.w.torn = false) →
            streamWriteLoop dl now tss (d.drop (copyWr s1.st d).1) (n + (copyWr s1.st d).1) { s1 with st := (copyWr s1.st d).2 } = some (r, k, s') →
            n ≤ k ∧ k - n ≤ d.length ∧ Wr s s' (d.take (k - n)) ∧ (∀ m, r = .ret m → m = k ∨ (m < 0 ∧ k = 0)) ∧ ((∀ u ∈ ts :: tss, Quiet dl u) → s.w.torn = false → s'.w.torn = false) := by
          intro s1 h1 hne1 hq h
          obtain ⟨c1, c2, c3, c4, c5⟩ := copyWr_spec h1.inv hne1 d
          simp only [view, Prod.mk.injEq] at c2
          obtain ⟨c2, c6, c7, c8⟩ := c2
          have hw : Wr s1 { s1 with st := (copyWr s1.st d).2 } (d.take (copyWr s1.st d).1) := ⟨c1, rfl, c6, c2, c8, id, fun _ => by dsimp only; rw [c7, List.append_assoc]⟩
          obtain ⟨p1, p2, p3, p4, p5⟩ := streamWriteLoop_spec (tss := tss) (s := { s1 with st := (copyWr s1.st d).2 }) c1 c4 h
          rw [List.length_drop] at p2
          refine ⟨by omega, by omega, ?_, p4, fun q e => p5 (fun u hu => q u (by simp [hu])) (hq q e)⟩
          have := (h1.trans hw).trans p3
          rw [List.nil_append, ← List.take_add] at this
          have he : (copyWr s1.st d).1 + (k - (n + (copyWr s1.st d).1)) = k - n := by omega
          rw [he] at this
          exact this
        split at h
        · split at h
          · cases h
          · rename_i s0 h0
            obtain ⟨q1, q2, q3, q4, q5, q6⟩ := flush_spec hi h0
            simp only [Option.some.injEq, Prod.mk.injEq] at h
            obtain ⟨rfl, rfl, rfl⟩ := h
            exact ⟨Nat.le_refl _, by omega, by simpa using q1, fun m e => (by cases e), fun q e => q4 (q ts (by simp)) e⟩
          · rename_i m0 s0 h0
            obtain ⟨q1, q2, q3, q4, q5, q6⟩ := flush_spec hi h0
            split at h
            · rename_i hm
              simp only [Option.some.injEq, Prod.mk.injEq] at h
              obtain ⟨rfl, rfl, rfl⟩ := h
              refine ⟨Nat.le_refl _, by omega, by simpa using q1, fun m e => ?_, fun q e => q4 (q ts (by simp)) e⟩
              split at e
              · rename_i hn
                injection e with e
                right
                have := q3 m0 rfl
                have h0' : m0 ≠ 0 := hm
                exact ⟨by omega, hn⟩
              · injection e with e; exact .inl e.symm
            · exact go q1 (by rw [q5]; exact hne) (fun q e => q4 (q ts (by simp)) e) h
        · exact go self hne (fun _ e => e) h
termination_by tss => tss.length

theorem streamWrite_spec {s s' : S} {d : List UInt8} {dl now : Int} {ok : Bool} {tss : List (List (Turn SysW))} {r : Res} {k : Nat} (hi : Inv s.st) (h : streamWrite s d dl now ok tss = some (r, k, s')) :
    (k ≤ d.length ∨ s'.w.torn = true) ∧ Wr s s' (d.take k) ∧ (∀ m, r = .ret m → m = k ∨ (m < 0 ∧ k = 0)) ∧ ((∀ ts ∈ tss, Quiet dl ts) → s.w.torn = false → s'.w.torn = false) := by
  unfold streamWrite at h
  split at h
  · cases h
  · rename_i r0 k0 s0 h0
    simp only [Option.some.injEq, Prod.mk.injEq] at h
    obtain ⟨rfl, rfl, rfl⟩ := h
    obtain ⟨g1, g2, g3, g4⟩ := guardA_w r0 s0.w
    have key : (k0 ≤ d.length ∨ s0.w.torn = true) ∧ Wr s s0 (d.take k0) ∧ (∀ m, r0 = .ret m → m = k0 ∨ (m < 0 ∧ k0 = 0)) ∧ ((∀ ts ∈ tss, Quiet dl ts) → s.w.torn = false → s0.w.torn = false) := by
      unfold streamWrite0 at h0
      split at h0
      · rename_i hb
        have hq : (∀ ts ∈ tss, Quiet dl ts) → tss ≠ [] → Quiet dl tss.head?.toList.flatten := by
          intro q hne
          cases tss with
          | nil => exact absurd rfl hne
          | cons a l => simpa using q a (by simp)
        have hne : ∀ x, write d dl tss.head?.toList.flatten s.w = some x → tss ≠ [] := by
          intro x hx e; subst e; simp [write, writeLoop] at hx
        split at h0
        · cases h0
        · rename_i w0 hw
          simp only [Option.some.injEq, Prod.mk.injEq] at h0
          obtain ⟨rfl, rfl, rfl⟩ := h0
          obtain ⟨t1, t2⟩ := write_torn hw
          refine ⟨.inl (Nat.zero_le _), ⟨hi, (write_inp hw).1, rfl, rfl, rfl, t1, fun ht => ?_⟩, fun m e => (by cases e), fun q e => t2 (hq q (hne _ hw)).1 (hq q (hne _ hw)).2 e⟩
          obtain ⟨k, q1, q2, q3, q4, q5, q6⟩ := write_spec hw (.inr ht)
          rw [q5 ht (.inr rfl)] at q2
          simp only [q2, List.take_zero, List.append_nil]
        · rename_i n w0 hw
          simp only [Option.some.injEq, Prod.mk.injEq] at h0
          obtain ⟨rfl, rfl, rfl⟩ := h0
          obtain ⟨t1, t2⟩ := write_torn hw
          have hge := (write_inp hw).2 n rfl
          have hu := (unbuf hi hb).2.2
          refine ⟨?_, ⟨hi, (write_inp hw).1, rfl, rfl, rfl, t1, fun ht => ?_⟩, fun m e => ?_, fun q e => t2 (hq q (hne _ hw)).1 (hq q (hne _ hw)).2 e⟩
          · cases ht : w0.torn with
            | true => exact .inr rfl
            | false =>
              obtain ⟨k, q1, q2, q3, q4, q5, q6⟩ := write_spec hw (.inr ht)
              rcases q3 n rfl with q | q
              · exact .inl (by omega)
              · exact .inl (by omega)
          · obtain ⟨k, q1, q2, q3, q4, q5, q6⟩ := write_spec hw (.inr ht)
            have hk : n.toNat = k := by
              rcases q3 n rfl with q | q
              · have := q5 ht (.inl (by rw [q])); omega
              · omega
            dsimp only
            rw [hu, q2, hk]; simp
          · injection e with e
            rcases Decidable.em (n < 0) with hn | hn
            · exact .inr ⟨by omega, by omega⟩
            · exact .inl (by omega)
      · rename_i hb
        have hb : s.st.buffered = true := by simpa using hb
        obtain ⟨e1, e2, e3⟩ := inv_ensureWr hi hb ok
        obtain ⟨v1, v2, v3, v4⟩ := view_eq e2
        have he : Wr s { s with st := (ensureWr s.st ok).2 } [] := ⟨e1, rfl, v2, v1, v4, id, fun _ => by dsimp only; rw [v3, List.append_nil]⟩
        dsimp only at h0
        split at h0
        · simp only [Option.some.injEq, Prod.mk.injEq] at h0
          obtain ⟨rfl, rfl, rfl⟩ := h0
          exact ⟨.inl (Nat.zero_le _), by simpa using he, fun m e => .inr ⟨by injection e with e; rw [← e]; decide, rfl⟩, fun _ e => e⟩
        · rename_i hno
          obtain ⟨p1, p2, p3, p4, p5⟩ := streamWriteLoop_spec (s := { s with st := (ensureWr s.st ok).2 }) e1 (e3 (by simpa using hno)) h0
          simp only [Nat.sub_zero] at p2 p3
          exact ⟨.inl p2, by simpa using he.trans p3, p4, p5⟩
    obtain ⟨k1, k2, k3, k4⟩ := key
    exact ⟨k1.imp id (fun e => g3.trans e), k2.of_w g1 g2 g3, fun m e => k3 m (guardA_ret e), fun a b => g3.trans (k4 a b)⟩

/-! ## Histories -/

theorem returned_snoc (l : List Ev) (e : Ev) : returned (l ++ [e]) = (match e with
    | .read _ bs => returned l ++ bs
    | .unread r => if r = 0 then (returned l).dropLast else returned l
    | _ => returned l) := by
  simp only [returned, List.foldl_append, List.foldl_cons, List.foldl_nil]
  cases e <;> rfl

theorem reported_snoc (l : List Ev) (e : Ev) : reported (l ++ [e]) = (match e with
    | .write d (.ret r) _ => reported l ++ d.take r.toNat
    | .write d .exit k => reported l ++ d.take k
    | _ => reported l) := by
  simp only [reported, List.foldl_append, List.foldl_cons, List.foldl_nil]
  cases e with
  | write d r k => cases r <;> rfl
  | _ => rfl

/-- what holds of a stream at any time -/
structure Hist (l : List Ev) (s : S) : Prop where
  inv : Inv s.st
  inp : s.w.inp = returned l ++ rdBuf s.st
  past : ∃ x, returned l = x ++ past s.st
  out : s.w.torn = false → s.w.out ++ wrBuf s.st = reported l

theorem Hist.rd {l : List Ev} {s s' : S} {r : Res} {bs : List UInt8} (h : Hist l s) (q : Rd s s' bs) : Hist (l ++ [.read r bs]) s' := by
  obtain ⟨new, p1, p2⟩ := q.inp
  obtain ⟨x, p3⟩ := q.past
  obtain ⟨y, p4⟩ := h.past
  have hr : returned (l ++ [.read r bs]) = returned l ++ bs := returned_snoc _ _
  have hw : reported (l ++ [.read r bs]) = reported l := reported_snoc _ _
  refine ⟨q.inv, ?_, ⟨y ++ x, ?_⟩, fun ht => ?_⟩
  · rw [p1, h.inp, hr, List.append_assoc, p2, List.append_assoc]
  · rw [hr, p4, List.append_assoc, p3, List.append_assoc]
  · rw [q.out, q.wr, hw]; exact h.out (q.torn.symm.trans ht)

theorem Hist.wr {l : List Ev} {s s' : S} {e : Ev} {add : List UInt8} (h : Hist l s) (q : Wr s s' add) (h1 : returned (l ++ [e]) = returned l) (h2 : s'.w.torn = false → reported (l ++ [e]) = reported l ++ add) : Hist (l ++ [e]) s' := by
  obtain ⟨y, p4⟩ := h.past
  refine ⟨q.inv, ?_, ⟨y, ?_⟩, fun ht => ?_⟩
  · rw [q.inp, h.inp, h1, q.rd]
  · rw [h1, p4, q.past]
  · rw [q.out ht, h.out (q.torn ht), h2 ht]

theorem reach_hist {ok : Act → Prop} {b : Bool} {n : Nat} (hn : n < 2 ^ 64) {l : List Ev} {s : S} (r : Reach ok b n l s) : Hist l s := by
  induction r with
  | make w h hi ho ht =>
    obtain ⟨m1, m2, m3, m4, m5⟩ := inv_make' hn h
    exact ⟨m1, by simp [hi, m2, returned], ⟨[], by simp [m3, returned]⟩, fun _ => by simp [ho, m4, reported]⟩
  | @step l s s' e r a hok hs ih =>
    cases a with
    | read n dl ok ts =>
      simp only [step, Option.map_eq_some_iff] at hs
      obtain ⟨⟨r, bs, s1⟩, hx, he⟩ := hs
      cases he
      exact ih.rd (streamRead_spec ih.inv hx).1
    | readFull n dl ok tss =>
      simp only [step, Option.map_eq_some_iff] at hs
      obtain ⟨⟨r, bs, s1⟩, hx, he⟩ := hs
      cases he
      exact ih.rd (readFull_spec ih.inv hx).1
    | readByte dl now ok ts =>
      simp only [step, Option.map_eq_some_iff] at hs
      obtain ⟨⟨r, bs, s1⟩, hx, he⟩ := hs
      cases he
      exact ih.rd (readByte_spec ih.inv hx).1
    | unread =>
      simp only [step, Option.some.injEq, Prod.mk.injEq] at hs
      obtain ⟨rfl, rfl⟩ := hs
      obtain ⟨u1, u2, u3, u4, u5, u6, u7⟩ := unread_spec ih.inv
      have hw : reported (l ++ [.unread (unread s).1]) = reported l := reported_snoc _ _
      have hr : returned (l ++ [.unread (unread s).1]) = if (unread s).1 = 0 then (returned l).dropLast else returned l := returned_snoc _ _
      obtain ⟨y, p4⟩ := ih.past
      rcases u7 with ⟨v1, v2, v3⟩ | ⟨v1, v2, p, b, v3, v4, v5⟩
      · rw [v1, if_neg (by decide)] at hr
        refine ⟨u1, ?_, ⟨y, ?_⟩, fun ht => ?_⟩
        · rw [u2, ih.inp, v1, hr, v2]
        · rw [v1, hr, p4, v2]
        · rw [u3, u5, hw]; exact ih.out (u4.symm.trans ht)
      · rw [v1, if_pos (by decide)] at hr
        have hd : (returned l).dropLast = y ++ p := by rw [p4, v3, ← List.append_assoc, List.dropLast_concat]
        refine ⟨u1, ?_, ⟨y, ?_⟩, fun ht => ?_⟩
        · rw [u2, ih.inp, v1, hr, hd, v5, p4, v3]; simp
        · rw [v1, hr, hd, v4]
        · rw [u3, u5, hw]; exact ih.out (u4.symm.trans ht)
    | write d dl now ok tss =>
      simp only [step, Option.map_eq_some_iff] at hs
      obtain ⟨⟨r, k, s1⟩, hx, he⟩ := hs
      cases he
      obtain ⟨q1, q2, q3, q4⟩ := streamWrite_spec ih.inv hx
      refine ih.wr q2 (returned_snoc _ _) (fun ht => ?_)
      have hw := reported_snoc l (.write d r k)
      dsimp only at hw ⊢
      rw [hw]
      cases r with
      | exit => rfl
      | ret m =>
        dsimp only
        rcases q3 m rfl with q | ⟨q, q'⟩
        · rw [q]; simp
        · rw [q', show m.toNat = 0 by omega]
    | flush dl now ts =>
      simp only [step, Option.map_eq_some_iff] at hs
      obtain ⟨⟨r, s1⟩, hx, he⟩ := hs
      cases he
      obtain ⟨q1, _⟩ := flush_spec ih.inv hx
      refine ih.wr q1 (returned_snoc _ _) (fun _ => ?_)
      have hw : reported (l ++ [.flush r]) = reported l := reported_snoc _ _
      dsimp only
      rw [hw, List.append_nil]
    | other c d a e' l' =>
      simp only [step, Option.some.injEq, Prod.mk.injEq] at hs
      obtain ⟨rfl, rfl⟩ := hs
      have hw : reported (l ++ [.other]) = reported l := reported_snoc _ _
      have hr : returned (l ++ [.other]) = returned l := returned_snoc _ _
      exact ⟨ih.inv, by rw [hr]; exact ih.inp, by rw [hr]; exact ih.past, by rw [hw]; exact ih.out⟩

theorem reach_buf {ok : Act → Prop} {b : Bool} {n : Nat} (hn : n < 2 ^ 64) {l : List Ev} {s : S} (r : Reach ok b n l s) : s.st.buffered = b := by
  induction r with
  | make w h hi ho ht => exact (inv_make' hn h).2.2.2.2
  | @step l s s' e r a hok hs ih =>
    have hh := reach_hist hn r
    cases a with
    | read n dl ok ts =>
      simp only [step, Option.map_eq_some_iff] at hs
      obtain ⟨⟨r, bs, s1⟩, hx, he⟩ := hs
      cases he
      exact (streamRead_spec hh.inv hx).1.buf.trans ih
    | readFull n dl ok tss =>
      simp only [step, Option.map_eq_some_iff] at hs
      obtain ⟨⟨r, bs, s1⟩, hx, he⟩ := hs
      cases he
      exact (readFull_spec hh.inv hx).1.buf.trans ih
    | readByte dl now ok ts =>
      simp only [step, Option.map_eq_some_iff] at hs
      obtain ⟨⟨r, bs, s1⟩, hx, he⟩ := hs
      cases he
      exact (readByte_spec hh.inv hx).1.buf.trans ih
    | unread =>
      simp only [step, Option.some.injEq, Prod.mk.injEq] at hs
      obtain ⟨rfl, rfl⟩ := hs
      exact (unread_spec hh.inv).2.2.2.2.2.1.trans ih
    | write d dl now ok tss =>
      simp only [step, Option.map_eq_some_iff] at hs
      obtain ⟨⟨r, k, s1⟩, hx, he⟩ := hs
      cases he
      exact (streamWrite_spec hh.inv hx).2.1.buf.trans ih
    | flush dl now ts =>
      simp only [step, Option.map_eq_some_iff] at hs
      obtain ⟨⟨r, s1⟩, hx, he⟩ := hs
      cases he
      exact (flush_spec hh.inv hx).1.buf.trans ih
    | other c d a e' l' =>
      simp only [step, Option.some.injEq, Prod.mk.injEq] at hs
      obtain ⟨rfl, rfl⟩ := hs
      exact ih

theorem reach_untorn {b : Bool} {n : Nat} (hn : n < 2 ^ 64) {l : List Ev} {s : S} (r : Reach Undisturbed b n l s) : s.w.torn = false := by
  induction r with
  | make w h hi ho ht => exact ht
  | @step l s s' e r a hok hs ih =>
    have hh := reach_hist hn r
    cases a with
    | read n dl ok ts =>
      simp only [step, Option.map_eq_some_iff] at hs
      obtain ⟨⟨r, bs, s1⟩, hx, he⟩ := hs
      cases he
      exact (streamRead_spec hh.inv hx).1.torn.trans ih
    | readFull n dl ok tss =>
      simp only [step, Option.map_eq_some_iff] at hs
      obtain ⟨⟨r, bs, s1⟩, hx, he⟩ := hs
      cases he
      exact (readFull_spec hh.inv hx).1.torn.trans ih
    | readByte dl now ok ts =>
      simp only [step, Option.map_eq_some_iff] at hs
      obtain ⟨⟨r, bs, s1⟩, hx, he⟩ := hs
      cases he
      exact (readByte_spec hh.inv hx).1.torn.trans ih
    | unread =>
      simp only [step, Option.some.injEq, Prod.mk.injEq] at hs
      obtain ⟨rfl, rfl⟩ := hs
      exact (unread_spec hh.inv).2.2.2.1.trans ih
    | write d dl now ok tss =>
      simp only [step, Option.map_eq_some_iff] at hs
      obtain ⟨⟨r, k, s1⟩, hx, he⟩ := hs
      cases he
      exact (streamWrite_spec hh.inv hx).2.2.2 (fun ts ht => ⟨hok.1, hok.2 ts ht⟩) ih
    | flush dl now ts =>
      simp only [step, Option.map_eq_some_iff] at hs
      obtain ⟨⟨r, s1⟩, hx, he⟩ := hs
      cases he
      exact (flush_spec hh.inv hx).2.2.2.1 ⟨hok.1, hok.2⟩ ih
    | other c d a e' l' =>
      simp only [step, Option.some.injEq, Prod.mk.injEq] at hs
      obtain ⟨rfl, rfl⟩ := hs
      exact ih

end Neco.Io
