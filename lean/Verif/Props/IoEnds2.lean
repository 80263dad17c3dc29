import Verif.Props.IoEnds

/-! # C39: an undisturbed `neco_stream_readfull` reads in full -/

namespace Neco.Io
open Neco.Err Neco.Burst

/-- rounds of a `read` that nobody cancels and that is not late, in which the descriptor delivers something in the end -/
def Delivers (dl : Int) (ts : List (Turn SysR)) : Prop :=
  ∃ pre t post d, ts = pre ++ t :: post ∧ t.sys = .data d ∧ d ≠ [] ∧ t.cancel = false ∧ t.expire = false ∧ (dl < MAX → t.now ≤ dl) ∧
    ∀ u ∈ pre, (u.sys = .err sysEINTR ∨ u.sys = .err sysEAGAIN) ∧ u.cancel = false ∧ u.expire = false ∧ (dl < MAX → u.now ≤ dl)

/-- rounds without a cancelation or an expiry leave no mark -/
theorem readDl_marks {cnt : Nat} {dl : Int} : ∀ {ts : List (Turn SysR)} {w w' : W} {m : Int} {bs : List UInt8}, readDl cnt dl ts w = some (.ret m, bs, w') → 0 ≤ m →
    (∀ pre t post d, ts = pre ++ t :: post → t.sys = .data d → (∀ u ∈ pre, ∃ e, u.sys = .err e) → t.cancel = false ∧ t.expire = false) → w'.canceled = false ∧ w'.deadlined = false
  | [], w, w', m, bs, h, _, _ => by simp [readDl] at h
  | t :: ts, w, w', m, bs, h, hm, hq => by
    unfold readDl at h
    dsimp only at h
    split at h
    · cases h; omega
    · rename_i hc
      have hc : (checkdl w dl t.now).1 = OK := by simpa using hc
      obtain ⟨o1, o2, o3, o4, o5⟩ := checkdl_ok hc
      split at h
      · cases h
      · split at h
        · rename_i e he
          split at h
          · exact readDl_marks h hm (fun pre t' post d q1 q2 q3 => hq (t :: pre) t' post d (by rw [q1]; rfl) q2 (by
              intro u hu
              rcases List.mem_cons.mp hu with rfl | hu
              · exact ⟨e, he⟩
              · exact q3 u hu))
          · cases h; omega
        · rename_i d hd
          obtain ⟨x1, x2⟩ := hq [] t ts d rfl hd (by simp)
          cases h
          simp [pass, o4, x1, x2]

theorem read_marks {cnt : Nat} {dl : Int} {ts : List (Turn SysR)} {w w' : W} {m : Int} {bs : List UInt8} (h : read cnt dl ts w = some (.ret m, bs, w')) (hm : 0 ≤ m) (hd : Delivers dl ts) :
    w'.canceled = false ∧ w'.deadlined = false := by
  unfold read at h
  split at h
  · cases h
  · rename_i r0 bs0 w0 hr
    simp only [Option.some.injEq, Prod.mk.injEq] at h
    obtain ⟨h1, rfl, rfl⟩ := h
    obtain ⟨_, _, _, _, g5, g6, _⟩ := guardA_w r0 w0
    have := guardA_ret h1
    subst this
    rw [g5, g6]
    refine readDl_marks hr hm ?_
    obtain ⟨pre, t, post, d, q1, q2, _, q4, q5, _, q7⟩ := hd
    intro pre' t' post' d' e1 e2 e3
    rw [q1] at e1
    rcases List.append_eq_append_iff.mp e1 with ⟨l, x1, x2⟩ | ⟨l, x1, x2⟩
    · cases l with
      | nil => simp at x2; obtain ⟨rfl, _⟩ := x2; exact ⟨q4, q5⟩
      | cons v l =>
        simp only [List.cons_append, List.cons.injEq] at x2
        obtain ⟨rfl, _⟩ := x2
        obtain ⟨e, he⟩ := e3 t (by rw [x1]; simp)
        rw [q2] at he; cases he
    · cases l with
      | nil => simp at x2; obtain ⟨rfl, _⟩ := x2; exact ⟨q4, q5⟩
      | cons v l =>
        simp only [List.cons_append, List.cons.injEq] at x2
        obtain ⟨rfl, _⟩ := x2
        have := q7 t' (by rw [x1]; simp)
        rw [e2] at this
        rcases this.1 with h | h <;> cases h

theorem streamRead_ends {s : S} (hi : Inv s.st) (hbuf : s.st.buffered = true) {n : Nat} (hn : 0 < n) {dl : Int} {ts : List (Turn SysR)} (hd : Delivers dl ts) (h1 : s.w.canceled = false) (h2 : s.w.deadlined = false) :
    ∃ s' bs, streamRead s n dl true ts = some (.ret bs.length, bs, s') ∧ bs ≠ [] ∧ bs.length ≤ n ∧ Inv s'.st ∧ s'.st.buffered = true ∧ s'.w.canceled = false ∧ s'.w.deadlined = false := by
  obtain ⟨e1, e2, e3, e4, e5⟩ := inv_ensureRd hi hbuf true
  have hok : (ensureRd s.st true).1 = true := by unfold ensureRd; (repeat' split) <;> first | rfl | simp_all
  have h0 : ∃ s' bs, streamRead0 s n dl true ts = some (.ret bs.length, bs, s') ∧ bs ≠ [] ∧ s'.w.canceled = false ∧ s'.w.deadlined = false := by
    unfold streamRead0
    rw [if_neg (by simp [hbuf])]
    dsimp only
    rw [if_neg (by simp [hok])]
    by_cases hl : (ensureRd s.st true).2.rdLen = 0
    · rw [if_pos hl]
      have hd' := hd
      obtain ⟨pre, t, post, d, q1, q2, q3, q4, q5, q6, q7⟩ := hd'
      obtain ⟨w', x1, x2⟩ := C38_read_ends (cnt := (ensureRd s.st true).2.cap) (post := post) q2 q4 q6 pre s.w h1 h2 q7
      rw [← q1] at x1
      obtain ⟨m1, m2⟩ := read_marks x1 (by omega) hd
      obtain ⟨_, _, _, z4, z5, _⟩ := read_spec x1
      have hcap : 0 < (ensureRd s.st true).2.cap := e1.cap (by have := (view_eq e2).2.2.2; rw [this]; exact hbuf)
      obtain ⟨f1, f2⟩ := fill_spec e1 (e3 hok) z4
      rw [x1]
      dsimp only
      rw [if_neg (by omega)]
      simp only [Int.toNat_natCast]
      refine ⟨_, _, rfl, ?_, m1, m2⟩
      rw [(takeRd_spec f1 n).2.1]
      simp only [view, Prod.mk.injEq] at f2
      rw [f2.2.1]
      intro hx
      have hx := congrArg List.length hx
      have : d.length ≠ 0 := fun e => q3 (List.length_eq_zero_iff.mp e)
      rw [List.length_take, List.length_take] at hx
      simp only [List.length_nil] at hx
      omega
    · rw [if_neg hl]
      refine ⟨_, _, rfl, ?_, h1, h2⟩
      rw [(takeRd_spec e1 n).2.1]
      intro hx
      have hx := congrArg List.length hx
      rw [List.length_take, rdBuf_length e1] at hx
      simp only [List.length_nil] at hx
      omega
  obtain ⟨s', bs, x1, x2, x3, x4⟩ := h0
  have hlen : bs.length ≠ 0 := fun e => x2 (List.length_eq_zero_iff.mp e)
  obtain ⟨y1, y2, _⟩ := streamRead0_spec hi x1
  obtain ⟨_, _, _, _, g5, g6, _⟩ := guardE_w (.ret bs.length) s'.w
  refine ⟨{ s' with w := (guardE (.ret bs.length) s'.w).2 }, bs, ?_, x2, y2, y1.inv, y1.buf.trans hbuf, g5.trans x3, g6.trans x4⟩
  unfold streamRead
  rw [x1]
  dsimp only
  rw [if_neg (by rintro ⟨e, _⟩; injection e with e; omega), guardE_r]

theorem readFullLoop_ends {dl : Int} : ∀ (tss : List (List (Turn SysR))) (n : Nat) (got : List UInt8) (s : S), Inv s.st → s.st.buffered = true → 0 < n → n ≤ tss.length → (∀ ts ∈ tss, Delivers dl ts) →
    s.w.canceled = false → s.w.deadlined = false → ∃ s' bs, readFullLoop dl true tss n got s = some (.ret bs.length, bs, s') ∧ bs.length = got.length + n
  | [], n, got, s, _, _, hn, hl, _, _, _ => by simp only [List.length_nil] at hl; omega
  | ts :: tss, n, got, s, hi, hb, hn, hl, hd, h1, h2 => by
    obtain ⟨s1, bs, q1, q2, q3, q4, q5, q6, q7⟩ := streamRead_ends (dl := dl) (ts := ts) hi hb hn (hd ts (by simp)) h1 h2
    have hlen : bs.length ≠ 0 := fun e => q2 (List.length_eq_zero_iff.mp e)
    rw [readFullLoop, q1]
    dsimp only
    rw [if_neg (by omega)]
    simp only [Int.toNat_natCast]
    by_cases hz : n - bs.length > 0
    · rw [if_pos hz]
      obtain ⟨s', bs', x1, x2⟩ := readFullLoop_ends (dl := dl) tss (n - bs.length) (got ++ bs) s1 q4 q5 hz (by simp only [List.length_cons] at hl; omega) (fun u hu => hd u (by simp [hu])) q6 q7
      refine ⟨s', bs', x1, ?_⟩
      rw [x2, List.length_append]; omega
    · rw [if_neg hz]
      exact ⟨s1, got ++ bs, rfl, by rw [List.length_append]; omega⟩

/-- **C39** `neco_stream_readfull`, undisturbed, from a descriptor that goes on delivering, in whatever portions: the call returns the number of bytes asked for, with as many bytes, which by C39_order are the next ones -/
theorem C39_readfull_ends {ok : Act → Prop} {c : Nat} (hc : c < 2 ^ 64) {l : List Ev} {s : S} (r : Reach ok true c l s) {n : Nat} (hn : 0 < n) {dl : Int} {tss : List (List (Turn SysR))} (hl : n ≤ tss.length)
    (hd : ∀ ts ∈ tss, Delivers dl ts) (h1 : s.w.canceled = false) (h2 : s.w.deadlined = false) :
    ∃ s' bs, readFull s n dl true tss = some (.ret n, bs, s') ∧ bs.length = n := by
  have hh := reach_hist hc r
  obtain ⟨s', bs, q1, q2⟩ := readFullLoop_ends (dl := dl) tss n [] s hh.inv (reach_buf hc r) hn hl hd h1 h2
  have e : bs.length = n := by rw [q2]; simp
  unfold readFull
  rw [q1]
  dsimp only
  rw [guardE_r, e]
  exact ⟨_, _, rfl, e⟩

/-- three bytes, one from the first round and two from the second, the third is not needed -/
example : ∃ s' bs, readFull (start 4) 3 9 true [[{ sys := .err sysEINTR }, { sys := .data [1] }], [{ sys := .data [2, 3], now := 9 }], [{ sys := .data [4] }]] = some (.ret 3, bs, s') ∧ bs.length = 3 :=
  C39_readfull_ends (ok := any) (c := 4) (by decide) (l := []) (start_reach rfl rfl rfl rfl) (by decide) (by decide)
    (by
      intro ts h; simp at h
      rcases h with rfl | rfl | rfl
      · exact ⟨[{ sys := .err sysEINTR }], { sys := .data [1] }, [], [1], rfl, rfl, by simp, rfl, rfl, by simp, by intro u hu; simp at hu; subst hu; simp⟩
      · exact ⟨[], _, [], [2, 3], rfl, rfl, by simp, rfl, rfl, by simp, by simp⟩
      · exact ⟨[], _, [], [4], rfl, rfl, by simp, rfl, rfl, by simp, by simp⟩) rfl rfl

end Neco.Io
