import Verif.Props.Burst

/-! # C37, C39, C40: undisturbed calls come back, with what was asked for -/

namespace Neco.Io
open Neco.Err Neco.Burst

/-- how many bytes the descriptor takes in these rounds, at most -/
def offered : List (Turn SysW) → Nat
  | [] => 0
  | t :: ts => (match t.sys with | .acc k => k | _ => 0) + offered ts

/-- a round in which nobody cancels the caller, the deadline is not reached, and the descriptor takes something or asks to try again -/
def Fair (dl : Int) (t : Turn SysW) : Prop :=
  t.cancel = false ∧ t.expire = false ∧ (dl < MAX → t.now ≤ dl) ∧ ((∃ k, t.sys = .acc k) ∨ t.sys = .err sysEINTR ∨ t.sys = .err sysEAGAIN)

theorem writeLoop_ends {dl : Int} : ∀ (ts : List (Turn SysW)) (d : List UInt8) (n : Nat) (w : W), d ≠ [] → d.length ≤ offered ts → (∀ t ∈ ts, Fair dl t) → w.canceled = false → w.deadlined = false →
    ∃ w', writeLoop dl ts d n w = some (.ret ((n + d.length : Nat) : Int), w') ∧ w'.out = w.out ++ d ∧ w'.canceled = false ∧ w'.deadlined = false
  | [], d, n, w, hd, hl, _, _, _ => by
    simp only [offered] at hl
    exact absurd (List.length_eq_zero_iff.mp (by omega)) hd
  | t :: ts, d, n, w, hd, hl, hf, h1, h2 => by
    obtain ⟨f1, f2, f3, f4⟩ := hf t (by simp)
    have hf' : ∀ u ∈ ts, Fair dl u := fun u hu => hf u (by simp [hu])
    rw [writeLoop, checkdl_calm h1 h2 f3]
    simp only [ne_eq, not_true, if_false]
    rcases f4 with ⟨k, f4⟩ | f4
    · simp only [offered, f4] at hl
      simp only [f4]
      by_cases hz : d.drop k = []
      · rw [if_pos hz]
        have hk : d.length ≤ k := List.drop_eq_nil_iff.mp hz
        rw [List.take_of_length_le hk]
        exact ⟨_, rfl, rfl, h1, h2⟩
      · rw [if_neg hz]
        simp only [pass, h1, f1, f2, Bool.or_self, Bool.false_and, Bool.false_eq_true, if_false]
        obtain ⟨w', q1, q2, q3⟩ := writeLoop_ends ts (d.drop k) (n + (d.take k).length) { w with out := w.out ++ d.take k, canceled := false, deadlined := false } hz (by rw [List.length_drop]; omega) hf' rfl rfl
        refine ⟨w', ?_, ?_, q3⟩
        · rw [q1]
          have : n + (d.take k).length + (d.drop k).length = n + d.length := by rw [List.length_take, List.length_drop]; omega
          rw [this]
        · rw [q2]; simp only [List.append_assoc, List.take_append_drop]
    · obtain ⟨e, he, ha⟩ : ∃ e, t.sys = .err e ∧ (e = sysEINTR ∨ e = sysEAGAIN) := by
        rcases f4 with f4 | f4
        · exact ⟨_, f4, .inl rfl⟩
        · exact ⟨_, f4, .inr rfl⟩
      simp only [offered, he] at hl
      simp only [he, if_pos ha, pass, h1, f1, f2, Bool.or_self, Bool.false_and, Bool.false_eq_true, if_false, if_neg hd]
      exact writeLoop_ends ts d n _ hd (by omega) hf' rfl rfl

theorem write_ends {d : List UInt8} {dl : Int} {ts : List (Turn SysW)} {w : W} (hd : d ≠ []) (hl : d.length ≤ offered ts) (hf : ∀ t ∈ ts, Fair dl t) (h1 : w.canceled = false) (h2 : w.deadlined = false) :
    ∃ w', write d dl ts w = some (.ret d.length, w') ∧ w'.out = w.out ++ d ∧ w'.canceled = false ∧ w'.deadlined = false := by
  obtain ⟨w', q1, q2, q3, q4⟩ := writeLoop_ends ts d 0 w hd hl hf h1 h2
  unfold write
  rw [q1]
  obtain ⟨g1, g2, _, _, g5, g6, _⟩ := guardA_w (.ret ((0 + d.length : Nat) : Int)) w'
  have hg := guardA_nonneg w' (show (0 : Int) ≤ ((0 + d.length : Nat) : Int) by omega)
  dsimp only
  rw [hg]
  refine ⟨(guardA (.ret ((0 + d.length : Nat) : Int)) w').2, ?_, g2.trans q2, g5.trans q3, g6.trans q4⟩
  dsimp only
  rw [if_neg (by omega)]
  simp

/-- **C37** a call of `neco_write` that nobody cancels and that is not late, on a descriptor that takes bytes now and then, in whatever portions: it returns with all bytes written -/
theorem C37_ends {d : List UInt8} {dl : Int} {ts : List (Turn SysW)} {w : W} (hd : d ≠ []) (hl : d.length ≤ offered ts) (hf : ∀ t ∈ ts, Fair dl t) (h1 : w.canceled = false) (h2 : w.deadlined = false) :
    ∃ w', write d dl ts w = some (.ret d.length, w') ∧ w'.out = w.out ++ d := by
  obtain ⟨w', q1, q2, _⟩ := write_ends hd hl hf h1 h2
  exact ⟨w', q1, q2⟩

theorem flush_ends {s : S} (hi : Inv s.st) (hbuf : s.st.buffered = true) {dl now : Int} {ts : List (Turn SysW)} (hb : 0 < s.st.wrLen)
    (hl : s.st.wrLen ≤ offered ts) (hf : ∀ t ∈ ts, Fair dl t) (h1 : s.w.canceled = false) (h2 : s.w.deadlined = false) :
    ∃ s', flush s dl now ts = some (.ret OK, s') ∧ s'.w.out = s.w.out ++ wrBuf s.st ∧ s'.w.canceled = false ∧ s'.w.deadlined = false := by
  have hlen := wrBuf_length hi
  have hld : (load s.st s.st.wrAt 0 s.st.wrLen).1 = wrBuf s.st := by unfold load wrBuf; cases s.st.wrAt <;> rfl
  have hne : wrBuf s.st ≠ [] := by intro e; rw [e] at hlen; simp at hlen; omega
  obtain ⟨w', q1, q2, q3, q4⟩ := write_ends (dl := dl) (ts := ts) (w := s.w) hne (by omega) hf h1 h2
  rw [hlen] at q1
  unfold flush flush0
  rw [if_neg (by simp [hbuf])]
  dsimp only
  rw [hld, q1]
  dsimp only
  rw [if_neg (by omega), if_neg (by omega)]
  obtain ⟨g1, g2, _, _, g5, g6, _⟩ := guardA_w (.ret OK) w'
  refine ⟨{ w := (guardA (.ret OK) w').2, st := { (load s.st s.st.wrAt 0 s.st.wrLen).2 with wrLen := 0 } }, ?_, g2.trans q2, g5.trans q3, g6.trans q4⟩
  dsimp only
  rw [guardA_nonneg w' (by decide)]

/-- **C40** a flush that nobody cancels and that is not late, on such a descriptor, returns `NECO_OK`; if the calls before were not disturbed either, then all that `neco_stream_write` reported as written is out -/
theorem C40_flush_ends {n : Nat} (hn : n < 2 ^ 64) {l : List Ev} {s : S} (r : Reach Undisturbed true n l s) {dl now : Int} {ts : List (Turn SysW)} (hb : 0 < bufferedWrite s.st)
    (hl : bufferedWrite s.st ≤ offered ts) (hf : ∀ t ∈ ts, Fair dl t) (h1 : s.w.canceled = false) (h2 : s.w.deadlined = false) :
    ∃ s', flush s dl now ts = some (.ret OK, s') ∧ s'.w.out = reported l ∧ bufferedWrite s'.st = 0 := by
  have hh := reach_hist hn r
  have ho := hh.out (reach_untorn hn r)
  have hbuf := reach_buf hn r
  have hw : bufferedWrite s.st = s.st.wrLen := by simp [bufferedWrite, hbuf]
  obtain ⟨s', x1, x2, _⟩ := flush_ends (dl := dl) (now := now) (ts := ts) hh.inv hbuf (by omega) (by omega) hf h1 h2
  exact ⟨s', x1, by rw [x2, ho], C40_flush hn r x1⟩

/-- **C40** a flush of a stream with nothing to write, undisturbed: `NECO_OK`, and nothing is written -/
theorem C40_flush_empty {ok : Act → Prop} {n : Nat} (hn : n < 2 ^ 64) {l : List Ev} {s : S} (r : Reach ok true n l s) {dl now : Int} {t : Turn SysW} {ts : List (Turn SysW)} (hb : bufferedWrite s.st = 0)
    (hf : Fair dl t) (h1 : s.w.canceled = false) (h2 : s.w.deadlined = false) :
    ∃ s', flush s dl now (t :: ts) = some (.ret OK, s') ∧ s'.w.out = s.w.out := by
  have hi := (reach_hist hn r).inv
  have hbuf := reach_buf hn r
  have hw : s.st.wrLen = 0 := by
    have : bufferedWrite s.st = s.st.wrLen := by simp [bufferedWrite, hbuf]
    omega
  have hld : (load s.st s.st.wrAt 0 s.st.wrLen).1 = [] := by rw [hw]; unfold load; cases s.st.wrAt <;> simp
  obtain ⟨f1, f2, f3, f4⟩ := hf
  have hx : ∃ w', writeLoop dl (t :: ts) [] 0 s.w = some (.ret ((0 : Nat) : Int), w') ∧ w'.out = s.w.out := by
    rw [writeLoop, checkdl_calm h1 h2 f3]
    rcases f4 with ⟨k, f4⟩ | f4
    · simp [f4]
    · obtain ⟨e, he, ha⟩ : ∃ e, t.sys = .err e ∧ (e = sysEINTR ∨ e = sysEAGAIN) := by
        rcases f4 with f4 | f4
        · exact ⟨_, f4, .inl rfl⟩
        · exact ⟨_, f4, .inr rfl⟩
      simp [he, if_pos ha, pass, h1, f1]
  obtain ⟨w', x1, x2⟩ := hx
  obtain ⟨g1, g2, _⟩ := guardA_w (.ret ((0 : Nat) : Int)) w'
  have hwr : write [] dl (t :: ts) s.w = some (.ret 0, (guardA (.ret ((0 : Nat) : Int)) w').2) := by
    unfold write
    rw [x1]
    dsimp only
    rw [guardA_nonneg w' (by omega)]
    simp
  unfold flush flush0
  rw [if_neg (by simp [hbuf])]
  dsimp only
  rw [hld, hwr]
  dsimp only
  rw [if_pos (by omega), if_pos ⟨rfl, hw⟩]
  obtain ⟨y1, y2, _⟩ := guardA_w (.ret OK) (guardA (.ret ((0 : Nat) : Int)) w').2
  refine ⟨{ w := (guardA (.ret OK) (guardA (.ret ((0 : Nat) : Int)) w').2).2, st := (load s.st s.st.wrAt 0 s.st.wrLen).2 }, ?_, y2.trans (g2.trans x2)⟩
  dsimp only
  rw [guardA_nonneg _ (by decide)]

theorem streamWriteLoop_ends {dl now : Int} : ∀ (tss : List (List (Turn SysW))) (d : List UInt8) (n : Nat) (s : S), Inv s.st → s.st.buffered = true → s.st.wrAt ≠ none → d.length ≤ tss.length →
    (∀ ts ∈ tss, s.st.cap ≤ offered ts ∧ ∀ t ∈ ts, Fair dl t) → s.w.canceled = false → s.w.deadlined = false →
    ∃ s', streamWriteLoop dl now tss d n s = some (.ret ((n + d.length : Nat) : Int), n + d.length, s')
  | [], d, n, s, _, _, _, hl, _, _, _ => by
    have : d = [] := List.length_eq_zero_iff.mp (by simpa using hl)
    subst this
    exact ⟨s, by simp [streamWriteLoop]⟩
  | ts :: tss, d, n, s, hi, hbuf, hat, hl, hf, h1, h2 => by
    rw [streamWriteLoop]
    by_cases hd : d = []
    · subst hd
      exact ⟨s, by simp⟩
    · rw [if_neg hd]
      dsimp only
      have go : ∀ s1 : S, Inv s1.st → s1.st.buffered = true → s1.st.wrAt ≠ none → s1.st.cap = s.st.cap → s1.st.wrLen < s1.st.cap → s1.w.canceled = false → s1.w.deadlined = false →
          ∃ s', streamWriteLoop dl now tss (d.drop (copyWr s1.st d).1) (n + (copyWr s1.st d).1) { s1 with st := (copyWr s1.st d).2 } = some (.ret ((n + d.length : Nat) : Int), n + d.length, s') := by
        intro s1 i1 b1 a1 c1 l1 k1 k2
        obtain ⟨p1, p2, p3, p4, p5⟩ := copyWr_spec i1 a1 d
        have p5 := p5 l1 hd
        simp only [view, Prod.mk.injEq] at p2
        obtain ⟨s', q⟩ := streamWriteLoop_ends (now := now) tss (d.drop (copyWr s1.st d).1) (n + (copyWr s1.st d).1) { s1 with st := (copyWr s1.st d).2 } p1 (p2.2.2.2.trans b1) p4
          (by rw [List.length_drop]; simp only [List.length_cons] at hl; omega)
          (fun us hu => ⟨by have := (hf us (by simp [hu])).1; rw [← c1] at this; exact this, (hf us (by simp [hu])).2⟩) k1 k2
        have e : n + (copyWr s1.st d).1 + (d.drop (copyWr s1.st d).1).length = n + d.length := by rw [List.length_drop]; omega
        rw [e] at q
        exact ⟨s', q⟩
      by_cases hw : s.st.wrLen = s.st.cap
      · rw [if_pos hw]
        have hcap := hi.cap hbuf
        obtain ⟨o1, o2⟩ := hf ts (by simp)
        obtain ⟨s1, x1, x2, x3, x4⟩ := flush_ends (dl := dl) (now := now) (ts := ts) hi hbuf (by omega) (by omega) o2 h1 h2
        obtain ⟨y1, y2, y3, y4, y5, y6⟩ := flush_spec hi x1
        have hz := congrArg List.length (y2 rfl)
        rw [wrBuf_length y1.inv] at hz
        rw [x1]
        dsimp only
        rw [if_neg (by simp)]
        exact go s1 y1.inv (y1.buf.trans hbuf) (by rw [y5]; exact hat) y6 (by rw [hz, y6]; exact hcap) x3 x4
      · rw [if_neg hw]
        exact go s hi hbuf hat rfl (by have := hi.wrc; omega) h1 h2

/-- **C40** `neco_stream_write`, undisturbed, on a descriptor that empties the buffer whenever it is full: the call takes all bytes, whatever their number -/
theorem C40_write_ends {ok : Act → Prop} {c : Nat} (hc : c < 2 ^ 64) {l : List Ev} {s : S} (r : Reach ok true c l s) {d : List UInt8} {dl now : Int} {tss : List (List (Turn SysW))} (hl : d.length ≤ tss.length)
    (hf : ∀ ts ∈ tss, s.st.cap ≤ offered ts ∧ ∀ t ∈ ts, Fair dl t) (h1 : s.w.canceled = false) (h2 : s.w.deadlined = false) :
    ∃ s', streamWrite s d dl now true tss = some (.ret d.length, d.length, s') := by
  have hh := reach_hist hc r
  have hbuf := reach_buf hc r
  obtain ⟨e1, e2, e3⟩ := inv_ensureWr hh.inv hbuf true
  have hok : (ensureWr s.st true).1 = true := by unfold ensureWr; (repeat' split) <;> first | rfl | simp_all
  have hcap : (ensureWr s.st true).2.cap = s.st.cap := by unfold ensureWr; (repeat' split) <;> rfl
  obtain ⟨s', q⟩ := streamWriteLoop_ends (dl := dl) (now := now) tss d 0 { s with st := (ensureWr s.st true).2 } e1 ((view_eq e2).2.2.2.trans hbuf) (e3 hok) hl (by rw [show ({ s with st := (ensureWr s.st true).2 } : S).st.cap = s.st.cap from hcap]; exact hf) h1 h2
  unfold streamWrite streamWrite0
  rw [if_neg (by simp [hbuf])]
  dsimp only
  rw [if_neg (by simp [hok]), q]
  dsimp only
  rw [guardA_nonneg s'.w (by omega)]
  simp

/-- **C39** `neco_stream_read` on an empty buffer, undisturbed: as soon as the descriptor delivers something the call returns the first bytes of it, at least one -/
theorem C39_read_ends {ok : Act → Prop} {c : Nat} (hc : c < 2 ^ 64) {l : List Ev} {s : S} (r : Reach ok true c l s) (hb : bufferedRead s.st = 0) {n : Nat} (hn : 0 < n) {dl : Int} {d : List UInt8}
    {t : Turn SysR} {pre post : List (Turn SysR)} (hs : t.sys = .data d) (ht : t.cancel = false) (hl : dl < MAX → t.now ≤ dl) (h1 : s.w.canceled = false) (h2 : s.w.deadlined = false)
    (hp : ∀ u ∈ pre, (u.sys = .err sysEINTR ∨ u.sys = .err sysEAGAIN) ∧ u.cancel = false ∧ u.expire = false ∧ (dl < MAX → u.now ≤ dl)) :
    ∃ s' bs, streamRead s n dl true (pre ++ t :: post) = some (if d = [] then .ret EOF else .ret bs.length, bs, s') ∧ bs <+: d ∧ bs.length ≤ n ∧ (d ≠ [] → bs ≠ []) := by
  have hh := reach_hist hc r
  have hbuf := reach_buf hc r
  have hr0 : s.st.rdLen = 0 := by
    simp only [bufferedRead, hbuf] at hb
    simpa using hb
  obtain ⟨e1, e2, e3, e4, e5⟩ := inv_ensureRd hh.inv hbuf true
  have hok : (ensureRd s.st true).1 = true := by unfold ensureRd; (repeat' split) <;> first | rfl | simp_all
  obtain ⟨w', q1, q2⟩ := C38_read_ends (cnt := (ensureRd s.st true).2.cap) (post := post) hs ht hl pre s.w h1 h2 hp
  obtain ⟨_, _, _, z4, z5, _⟩ := read_spec q1
  have hz : w'.lasterr = 0 := by
    rcases z5 _ rfl with ⟨z, _⟩ | ⟨_, z⟩
    · omega
    · exact z
  have hcap : 0 < (ensureRd s.st true).2.cap := e1.cap (by have := (view_eq e2).2.2.2; rw [this]; exact hbuf)
  obtain ⟨f1, f2⟩ := fill_spec e1 (e3 hok) z4
  have h0 : ∃ s' bs, streamRead0 s n dl true (pre ++ t :: post) = some (.ret bs.length, bs, s') ∧ bs = (d.take (ensureRd s.st true).2.cap).take n ∧ s'.w = w' := by
    unfold streamRead0
    rw [if_neg (by simp [hbuf])]
    dsimp only
    rw [if_neg (by simp [hok]), if_pos (by rw [e5]; exact hr0), q1]
    dsimp only
    rw [if_neg (by omega)]
    simp only [Int.toNat_natCast]
    refine ⟨_, _, rfl, ?_, rfl⟩
    rw [(takeRd_spec f1 n).2.1]
    simp only [view, Prod.mk.injEq] at f2
    rw [f2.2.1]
  obtain ⟨s', bs, x1, x2, x3⟩ := h0
  have hpre : bs <+: d := by rw [x2]; exact (List.take_prefix _ _).trans (List.take_prefix _ _)
  have hlen : bs.length ≤ n := by rw [x2, List.length_take]; omega
  have hne : d ≠ [] → bs ≠ [] := by
    intro hd hx
    have hx := congrArg List.length hx
    rw [x2, List.length_take, List.length_take] at hx
    have : d.length ≠ 0 := fun e => hd (List.length_eq_zero_iff.mp e)
    simp only [List.length_nil] at hx
    omega
  refine ⟨{ s' with w := (guardE (if d = [] then .ret EOF else .ret bs.length) s'.w).2 }, bs, ?_, hpre, hlen, hne⟩
  unfold streamRead
  rw [x1]
  dsimp only
  by_cases hd : d = []
  · have hb0 : bs = [] := by subst hd; simpa using hpre
    subst hb0
    rw [if_pos ⟨rfl, hn, by rw [x3]; exact hz⟩, if_pos hd, guardE_r]
  · have : bs.length ≠ 0 := fun e => hne hd (List.length_eq_zero_iff.mp e)
    rw [if_neg (by rintro ⟨e, _⟩; injection e with e; omega), if_neg hd, guardE_r]

/-- three bytes in two portions with an interruption; a stream of four bytes, five written, then a flush; reading it -/
example : ∃ w', write [1, 2, 3] 9 [{ sys := .acc 1 }, { sys := .err sysEINTR }, { sys := .acc 7, now := 9 }] {} = some (.ret 3, w') ∧ w'.out = [1, 2, 3] :=
  C37_ends (by decide) (by decide) (by intro t ht; simp at ht; rcases ht with rfl | rfl | rfl <;> simp [Fair]) rfl rfl

def exEnds : List Act := [.write [1, 2, 3, 4, 5] MAX 0 true [[], [{ sys := .acc 3 }, { sys := .acc 1 }]], .write [6] MAX 0 true [[]]]

example : ∃ l s, Reach Undisturbed true 4 l s ∧ bufferedWrite s.st = 2 ∧ s.w.canceled = false ∧ s.w.deadlined = false ∧
    (∃ s', flush s 9 0 [{ sys := .err sysEAGAIN, now := 2 }, { sys := .acc 1 }, { sys := .acc 1 }] = some (.ret OK, s') ∧ s'.w.out = [1, 2, 3, 4, 5, 6]) := by
  have r : Reach Undisturbed true 4 _ _ := runs_reach (as := exEnds) (l := []) (s := start 4) (start_reach rfl rfl rfl rfl)
    (by intro a ha; simp [exEnds] at ha; rcases ha with rfl | rfl <;> simp [Undisturbed, Calm]) rfl
  refine ⟨_, _, r, by decide +kernel, rfl, rfl, ?_⟩
  obtain ⟨s', q1, q2, _⟩ := C40_flush_ends (by decide) r (dl := 9) (now := 0) (ts := [{ sys := .err sysEAGAIN, now := 2 }, { sys := .acc 1 }, { sys := .acc 1 }]) (by decide +kernel) (by decide +kernel)
    (by intro t ht; simp at ht; rcases ht with rfl | rfl | rfl <;> simp [Fair]) rfl rfl
  exact ⟨s', q1, q2⟩

example : ∃ s' bs, streamRead (start 4) 3 9 true [{ sys := .err sysEAGAIN }, { sys := .data [1, 2, 3, 4, 5, 6], now := 9 }] = some (if ([1, 2, 3, 4, 5, 6] : List UInt8) = [] then .ret EOF else .ret bs.length, bs, s') ∧ bs ≠ [] := by
  obtain ⟨s', bs, q1, _, _, q4⟩ := C39_read_ends (ok := any) (c := 4) (by decide) (l := []) (s := start 4) (start_reach rfl rfl rfl rfl) (by decide) (n := 3) (by decide) (dl := 9) (d := [1, 2, 3, 4, 5, 6])
    (t := { sys := .data [1, 2, 3, 4, 5, 6], now := 9 }) (pre := [{ sys := .err sysEAGAIN }]) (post := []) rfl rfl (by intro _; exact Int.le_refl _) rfl rfl
    (by intro u hu; simp at hu; subst hu; simp)
  exact ⟨s', bs, q1, q4 (by decide)⟩

example : ∃ s', streamWrite (start 2) [1, 2, 3] 9 0 true [[{ sys := .acc 2 }], [{ sys := .acc 1 }, { sys := .err sysEAGAIN }, { sys := .acc 5 }], [{ sys := .acc 2 }]] = some (.ret 3, 3, s') :=
  C40_write_ends (ok := any) (c := 2) (by decide) (l := []) (start_reach rfl rfl rfl rfl) (by decide)
    (by intro ts hts; simp at hts; rcases hts with rfl | rfl | rfl <;> refine ⟨by decide, ?_⟩ <;> intro t ht <;> simp at ht <;> (try rcases ht with rfl | rfl | rfl) <;> (try subst ht) <;> simp [Fair]) rfl rfl

end Neco.Io
