import Verif.Model.Burst
import Verif.Props.Io
import Verif.Props.Stream

/-! # C38, C57 for the read loop that tries first (`NECO_BURST` ≥ 0) -/

namespace Neco.Burst
open Neco.Err Neco.Io

theorem readDl_spec {burst cnt : Nat} {dl : Int} : ∀ {ts : List Round} {n n' : Nat} {w w' : W} {r : Res} {bs : List UInt8}, readDl burst cnt dl ts n w = some (r, bs, n', w') →
    ∃ pre t post, ts = pre ++ t :: post ∧ (∀ u ∈ pre, ∃ e, u.sys = .err e ∧ Again e) ∧ w'.inp = w.inp ++ bs ∧ w'.async = w.async ∧
      ((r = .exit ∧ bs = [] ∧ w.async = true ∧ t.cancel = true ∧ ∃ e, t.sys = .err e ∧ Again e) ∨
       (r = .ret (-1) ∧ bs = [] ∧ ((w'.errno = sysECANCELED ∧ (w.canceled = true ∨ ∃ u ∈ pre, u.cancel = true)) ∨
          (w'.errno = sysETIMEDOUT ∧ (w.deadlined = true ∨ (∃ u ∈ pre, u.expire = true) ∨ (dl < MAX ∧ t.now > dl))))) ∨
       (∃ e, t.sys = .err e ∧ ¬Again e ∧ r = .ret (-1) ∧ bs = [] ∧ w'.errno = e) ∨
       (∃ d, t.sys = .data d ∧ bs = d.take cnt ∧ r = .ret bs.length))
  | [], n, n', w, w', r, bs, h => by simp [readDl] at h
  | t :: ts, n, n', w, w', r, bs, h => by
    unfold readDl at h
    dsimp only at h
    obtain ⟨c1, c2, c3, c4, c5⟩ := checkdl_w w dl t.now
    split at h
    · rename_i hc
      simp only [Option.some.injEq, Prod.mk.injEq] at h
      obtain ⟨rfl, rfl, rfl, rfl⟩ := h
      refine ⟨[], t, ts, rfl, by simp, by simp [c1], by simp [c4], ?_⟩
      right; left
      refine ⟨rfl, rfl, ?_⟩
      rcases checkdl_no hc with ⟨h1, h2⟩ | ⟨h1, h2, h3⟩
      · left; rw [h2]; exact ⟨dlErrno_canceled, .inl h1⟩
      · right; rw [h3]; refine ⟨dlErrno_timedout, ?_⟩
        rcases h2 with h2 | h2
        · exact .inl h2
        · exact .inr (.inr h2)
    · rename_i hc
      have hc : (checkdl w dl t.now).1 = OK := by simpa using hc
      obtain ⟨o1, o2, o3, o4, o5⟩ := checkdl_ok hc
      have again : ∀ {m : Nat} {w1 : W}, readDl burst cnt dl ts m w1 = some (r, bs, n', w') → w1.inp = w.inp → w1.async = w.async → w1.canceled = t.cancel →
          (w1.deadlined = true → t.expire = true) → (∃ e, t.sys = .err e ∧ Again e) → ∃ pre t' post, t :: ts = pre ++ t' :: post ∧ (∀ u ∈ pre, ∃ e, u.sys = .err e ∧ Again e) ∧ w'.inp = w.inp ++ bs ∧ w'.async = w.async ∧
          ((r = .exit ∧ bs = [] ∧ w.async = true ∧ t'.cancel = true ∧ ∃ e, t'.sys = .err e ∧ Again e) ∨
           (r = .ret (-1) ∧ bs = [] ∧ ((w'.errno = sysECANCELED ∧ (w.canceled = true ∨ ∃ u ∈ pre, u.cancel = true)) ∨
              (w'.errno = sysETIMEDOUT ∧ (w.deadlined = true ∨ (∃ u ∈ pre, u.expire = true) ∨ (dl < MAX ∧ t'.now > dl))))) ∨
           (∃ e, t'.sys = .err e ∧ ¬Again e ∧ r = .ret (-1) ∧ bs = [] ∧ w'.errno = e) ∨
           (∃ d, t'.sys = .data d ∧ bs = d.take cnt ∧ r = .ret bs.length)) := by
          intro m w1 h e1 e2 e3 e4 hs
          obtain ⟨pre, t', post, q1, q2, q3, q6, q7⟩ := readDl_spec h
          refine ⟨t :: pre, t', post, by rw [q1]; rfl, ?_, by rw [q3, e1], by rw [q6, e2], ?_⟩
          · intro u hu
            rcases List.mem_cons.mp hu with rfl | hu
            · exact hs
            · exact q2 u hu
          · rw [e2, e3] at q7
            rcases q7 with q7 | ⟨q7, q8, q9⟩ | q7
            · exact .inl q7
            · refine .inr (.inl ⟨q7, q8, ?_⟩)
              rcases q9 with ⟨q9, q10⟩ | ⟨q9, q10⟩
              · refine .inl ⟨q9, .inr ?_⟩
                rcases q10 with q10 | ⟨u, hu, q10⟩
                · exact ⟨t, by simp, q10⟩
                · exact ⟨u, by simp [hu], q10⟩
              · refine .inr ⟨q9, ?_⟩
                rcases q10 with q10 | ⟨u, hu, q10⟩ | q10
                · exact .inr (.inl ⟨t, by simp, e4 q10⟩)
                · exact .inr (.inl ⟨u, by simp [hu], q10⟩)
                · exact .inr (.inr q10)
            · exact .inr (.inr q7)
      split at h
      · rename_i e he
        split at h
        · rename_i ha
          split at h
          · split at h
            · rename_i hx
              simp only [pass, o4, Bool.false_or, Bool.and_eq_true] at hx
              simp only [Option.some.injEq, Prod.mk.injEq] at h
              obtain ⟨rfl, rfl, rfl, rfl⟩ := h
              refine ⟨[], t, ts, rfl, by simp, by simp [pass, c1], by simp [pass, c4], ?_⟩
              left
              exact ⟨rfl, rfl, by rw [← c4]; exact hx.2, hx.1, e, he, ha⟩
            · exact again h (by simp [pass, c1]) (by simp [pass, c4]) (by simp [pass, o4]) (by simp [pass]) ⟨e, he, ha⟩
          · exact again h (by simp [scoYield, c1]) (by simp [scoYield, c4]) (by simp [scoYield, o4]) (by simp [scoYield, o5]) ⟨e, he, ha⟩
        · rename_i ha
          simp only [Option.some.injEq, Prod.mk.injEq] at h
          obtain ⟨rfl, rfl, rfl, rfl⟩ := h
          refine ⟨[], t, ts, rfl, by simp, by simp [c1], by simp [c4], ?_⟩
          exact .inr (.inr (.inl ⟨e, he, ha, rfl, rfl, rfl⟩))
      · rename_i d hd
        simp only [Option.some.injEq, Prod.mk.injEq] at h
        obtain ⟨rfl, rfl, rfl, rfl⟩ := h
        refine ⟨[], t, ts, rfl, by simp, by simp [c1], by simp [c4], ?_⟩
        exact .inr (.inr (.inr ⟨d, hd, rfl, rfl⟩))

/-- **C38** in every configuration with `NECO_BURST` ≥ 0, and whatever other coroutines do to the counter: the same as `C38_read`.  And a call that ended because it was canceled or late
took nothing from the descriptor: the only `read`s before had to be tried again -/
theorem C38_burst {burst cnt : Nat} {dl : Int} {ts : List Round} {n n' : Nat} {w w' : W} {r : Res} {bs : List UInt8} (h : read burst cnt dl ts n w = some (r, bs, n', w')) :
    w'.inp = w.inp ++ bs ∧
    ∃ pre t post, ts = pre ++ t :: post ∧ (∀ u ∈ pre, u.sys = .err sysEINTR ∨ u.sys = .err sysEAGAIN) ∧
      ((∃ d, t.sys = .data d ∧ bs = d.take cnt ∧ r = .ret bs.length) ∨
       (∃ e, t.sys = .err e ∧ e ≠ sysEINTR ∧ e ≠ sysEAGAIN ∧ bs = [] ∧ w'.errno = e ∧ (r = .ret (-1) ∨ (r = .exit ∧ e = sysECANCELED ∧ w.async = true))) ∨
       (bs = [] ∧ (w.canceled = true ∨ ∃ u ∈ pre ++ [t], u.cancel = true) ∧ ((r = .ret (-1) ∧ w'.errno = sysECANCELED ∧ w.async = false) ∨ (r = .exit ∧ w.async = true))) ∨
       (bs = [] ∧ (w.deadlined = true ∨ (∃ u ∈ pre, u.expire = true) ∨ (dl < MAX ∧ t.now > dl)) ∧ r = .ret (-1) ∧ w'.errno = sysETIMEDOUT)) := by
  unfold read at h
  split at h
  · cases h
  · rename_i r0 bs0 n0 w0 hr
    simp only [Option.some.injEq, Prod.mk.injEq] at h
    obtain ⟨rfl, rfl, rfl, rfl⟩ := h
    obtain ⟨g1, g2, g3, g4, g5, g6, g7⟩ := guardA_w r0 w0
    obtain ⟨pre, t, post, q1, q2, q3, q6, q7⟩ := readDl_spec hr
    refine ⟨g1.trans q3, pre, t, post, q1, fun u hu => ?_, ?_⟩
    · obtain ⟨e, he, ha⟩ := q2 u hu
      rcases ha with ha | ha
      · left; rw [he, ha]
      · right; rw [he, ha]
    · have hneg : ∀ w0 : W, (guardA (.ret (-1)) w0).1 = .ret (-1) ∨ (guardA (.ret (-1)) w0).1 = .exit := by
        intro w0; simp only [guardA]; split
        · exact .inr rfl
        · exact .inl rfl
      rcases q7 with ⟨x1, x2, x4, x5, _⟩ | ⟨x1, x2, x3⟩ | ⟨e, x0, x3, x1, x2, x4⟩ | ⟨d, x0, x1, x2⟩
      · subst x1 x2
        exact .inr (.inr (.inl ⟨rfl, .inr ⟨t, by simp, x5⟩, .inr ⟨rfl, x4⟩⟩))
      · subst x1 x2
        rcases x3 with ⟨x3, x4⟩ | ⟨x3, x4⟩
        · refine .inr (.inr (.inl ⟨rfl, ?_, ?_⟩))
          · rcases x4 with x4 | ⟨u, hu, x4⟩
            · exact .inl x4
            · exact .inr ⟨u, by simp [hu], x4⟩
          · cases ha : w.async with
            | true =>
              right
              refine ⟨?_, rfl⟩
              simp [guardA, asyncErrorGuard, errorGuard, x3, q6, ha, show fromSys sysECANCELED = CANCELED from by decide, show (CANCELED = INVAL) = False from by decide, show (CANCELED = PERM) = False from by decide, show (CANCELED = NOMEM) = False from by decide]
            | false =>
              left
              refine ⟨?_, g4.trans x3, rfl⟩
              rcases hneg w0 with hg | hg
              · exact hg
              · have := (guardA_exit hg).1; rw [q6, ha] at this; cases this
        · refine .inr (.inr (.inr ⟨rfl, x4, ?_, g4.trans x3⟩))
          rcases hneg w0 with hg | hg
          · exact hg
          · rcases (guardA_exit hg).2 with ⟨_, h2⟩ | h2
            · rw [x3] at h2; exact absurd h2 (by decide)
            · exact absurd h2 (by decide)
      · subst x1 x2
        refine .inr (.inl ⟨e, x0, fun q => x3 (.inl q), fun q => x3 (.inr q), rfl, g4.trans x4, ?_⟩)
        rcases hneg w0 with hg | hg
        · exact .inl hg
        · right
          obtain ⟨h1, h2⟩ := guardA_exit hg
          refine ⟨hg, ?_, by rw [← q6]; exact h1⟩
          rcases h2 with ⟨_, h2⟩ | h2
          · rw [← x4]; exact h2
          · exact absurd h2 (by decide)
      · subst x2
        exact .inl ⟨d, x0, x1, guardA_nonneg _ (by omega)⟩

/-- **C57** a coroutine that is canceled when it calls `neco_read` is told so, and nothing is read -/
theorem C57_burst_partial {burst cnt : Nat} {dl : Int} {ts : List Round} {n n' : Nat} {w w' : W} {r : Res} {bs : List UInt8} (hc : w.canceled = true) (h : read burst cnt dl ts n w = some (r, bs, n', w')) :
    Tells r w' ∧ bs = [] ∧ w'.inp = w.inp := by
  cases ts with
  | nil => simp [read, readDl] at h
  | cons t ts =>
    simp only [read, readDl, checkdl_canceled hc] at h
    rw [if_pos (by decide)] at h
    simp only [Option.some.injEq, Prod.mk.injEq] at h
    obtain ⟨rfl, rfl, rfl, rfl⟩ := h
    obtain ⟨g1, g2, g3, g4, g5⟩ := guardA_w (.ret (-1)) { w with canceled := false, deadlined := false, errno := dlErrno CANCELED }
    refine ⟨?_, rfl, g1⟩
    unfold Tells
    rw [g4]
    simp only [guardA]; split
    · exact .inl rfl
    · exact .inr (.inr ⟨rfl, by decide⟩)

/-- **C38** the loop does not miss a cancellation: a call that began a round after one in which its coroutine was canceled ends in that round and says so -/
theorem C38_burst_cancel {burst cnt : Nat} {dl : Int} {t u : Round} {ts : List Round} {n n' : Nat} {w w' : W} {r : Res} {bs : List UInt8}
    (ht : t.sys = .err sysEINTR ∨ t.sys = .err sysEAGAIN) (hc : t.cancel = true) (hl : w.deadlined = false) (hd : dl < MAX → t.now ≤ dl)
    (h : read burst cnt dl (t :: u :: ts) n w = some (r, bs, n', w')) : Tells r w' ∧ bs = [] ∧ w'.inp = w.inp := by
  cases hw : w.canceled with
  | true => exact C57_burst_partial hw h
  | false =>
    have hk : (checkdl w dl t.now) = (OK, w) := by
      unfold checkdl
      rw [hw, hl]
      by_cases hm : dl = MAX
      · simp [hm]
      · by_cases hm2 : dl < MAX
        · have := hd hm2
          have h3 : ¬ (t.now > dl) := by omega
          simp [hm, h3]
          cases w; simp_all
        · simp [hm, hm2]
          cases w; simp_all
    unfold read readDl at h
    rw [hk] at h
    obtain ⟨e, he, ha⟩ : ∃ e, t.sys = .err e ∧ (e = sysEINTR ∨ e = sysEAGAIN) := by
      rcases ht with ht | ht
      · exact ⟨_, ht, .inl rfl⟩
      · exact ⟨_, ht, .inr rfl⟩
    have key : ∀ (m : Nat) (w1 : W), w1.canceled = true → w1.inp = w.inp → read burst cnt dl (u :: ts) m w1 = some (r, bs, n', w') → Tells r w' ∧ bs = [] ∧ w'.inp = w.inp := fun m w1 h1 h2 h3 => by
      have := C57_burst_partial (n := m) (burst := burst) (cnt := cnt) (dl := dl) (ts := u :: ts) h1 h3
      rw [h2] at this; exact this
    simp only [ne_eq, not_true, if_false, he, if_pos ha] at h
    by_cases hb : n = burst
    · simp only [if_pos hb] at h
      cases hx : w.async with
      | true =>
        simp [pass, hc, hx, guardA] at h
        obtain ⟨rfl, rfl, rfl, rfl⟩ := h
        exact ⟨.inl rfl, rfl, rfl⟩
      | false =>
        simp only [pass, hc, hx, Bool.or_true, Bool.and_false, Bool.false_eq_true, if_false] at h
        exact key (t.others 0) { w with canceled := true, deadlined := t.expire, async := false, errno := e } rfl rfl (by unfold read; exact h)
    · simp only [if_neg hb] at h
      exact key (t.others (n + 1)) (scoYield { w with errno := e } t) (by simp [scoYield, hc]) (by simp [scoYield]) (by unfold read; exact h)

/-- **C38** the counter stays within its bound, so the comparison for equality, which decides whether to wait for the descriptor, is not missed -/
theorem C38_burst_count {burst cnt : Nat} {dl : Int} {ts : List Round} {n n' : Nat} {w w' : W} {r : Res} {bs : List UInt8} (hn : n ≤ burst) (ho : ∀ t ∈ ts, ∀ m ≤ burst, t.others m ≤ burst)
    (h : read burst cnt dl ts n w = some (r, bs, n', w')) : n' ≤ burst := by
  have key : ∀ (ts : List Round) (n : Nat) (w : W) (r : Res) (bs : List UInt8) (n' : Nat) (w' : W), n ≤ burst → (∀ t ∈ ts, ∀ m ≤ burst, t.others m ≤ burst) → readDl burst cnt dl ts n w = some (r, bs, n', w') → n' ≤ burst := by
    intro ts
    induction ts with
    | nil => intro n w r bs n' w' _ _ h; simp [readDl] at h
    | cons t ts ih =>
      intro n w r bs n' w' hn ho h
      have ho' : ∀ u ∈ ts, ∀ m ≤ burst, u.others m ≤ burst := fun u hu => ho u (by simp [hu])
      unfold readDl at h
      dsimp only at h
      split at h
      · cases h; exact hn
      · split at h
        · split at h
          · split at h
            · split at h
              · cases h; omega
              · exact ih _ _ _ _ _ _ (ho t (by simp) 0 (by omega)) ho' h
            · exact ih _ _ _ _ _ _ (ho t (by simp) _ (by omega)) ho' h
          · cases h; exact hn
        · cases h; exact hn
  unfold read at h
  split at h
  · cases h
  · rename_i hr
    cases h
    exact key _ _ _ _ _ _ _ hn ho hr

/-- the check passes when nothing is wrong -/
theorem checkdl_calm {w : W} {dl now : Int} (h1 : w.canceled = false) (h2 : w.deadlined = false) (h3 : dl < MAX → now ≤ dl) : checkdl w dl now = (OK, w) := by
  unfold checkdl
  rw [h1, h2]
  by_cases hm : dl = MAX
  · simp [hm]
  · by_cases hm2 : dl < MAX
    · have := h3 hm2
      have h3 : ¬ (now > dl) := by omega
      simp [hm, h3]
      cases w; simp_all
    · simp [hm, hm2]
      cases w; simp_all

/-- **C38** a call that nobody cancels and that is not late returns with the data as soon as `read` delivers some (or the end of the file) -/
theorem C38_read_ends {cnt : Nat} {dl : Int} {d : List UInt8} {t : Turn SysR} {post : List (Turn SysR)} (hs : t.sys = .data d) (hc : t.cancel = false) (ht : dl < MAX → t.now ≤ dl) :
    ∀ (pre : List (Turn SysR)) (w : W), w.canceled = false → w.deadlined = false →
      (∀ u ∈ pre, (u.sys = .err sysEINTR ∨ u.sys = .err sysEAGAIN) ∧ u.cancel = false ∧ u.expire = false ∧ (dl < MAX → u.now ≤ dl)) →
      ∃ w', Io.read cnt dl (pre ++ t :: post) w = some (.ret (d.take cnt).length, d.take cnt, w') ∧ w'.inp = w.inp ++ d.take cnt := by
  have key : ∀ (pre : List (Turn SysR)) (w : W), w.canceled = false → w.deadlined = false →
      (∀ u ∈ pre, (u.sys = .err sysEINTR ∨ u.sys = .err sysEAGAIN) ∧ u.cancel = false ∧ u.expire = false ∧ (dl < MAX → u.now ≤ dl)) →
      ∃ w', Io.readDl cnt dl (pre ++ t :: post) w = some (.ret (d.take cnt).length, d.take cnt, w') ∧ w'.inp = w.inp ++ d.take cnt := by
    intro pre
    induction pre with
    | nil =>
      intro w h1 h2 _
      rw [List.nil_append, Io.readDl, checkdl_calm h1 h2 ht]
      simp only [ne_eq, not_true, if_false, pass, h1, hc, Bool.or_self, Bool.false_and, Bool.false_eq_true, hs]
      exact ⟨_, rfl, rfl⟩
    | cons u pre ih =>
      intro w h1 h2 hp
      obtain ⟨u1, u2, u3, u4⟩ := hp u (by simp)
      obtain ⟨e, he, ha⟩ : ∃ e, u.sys = .err e ∧ (e = sysEINTR ∨ e = sysEAGAIN) := by
        rcases u1 with u1 | u1
        · exact ⟨_, u1, .inl rfl⟩
        · exact ⟨_, u1, .inr rfl⟩
      rw [List.cons_append, Io.readDl, checkdl_calm h1 h2 u4]
      simp only [ne_eq, not_true, if_false, pass, h1, u2, u3, Bool.or_self, Bool.false_and, Bool.false_eq_true, he, if_pos ha]
      exact ih _ rfl rfl (fun v hv => hp v (by simp [hv]))
  intro pre w h1 h2 hp
  obtain ⟨w', q1, q2⟩ := key pre w h1 h2 hp
  unfold Io.read
  rw [q1]
  obtain ⟨g1, _⟩ := guardA_w (.ret (d.take cnt).length) w'
  refine ⟨(guardA (.ret (d.take cnt).length) w').2, ?_, g1.trans q2⟩
  simp only [guardA_nonneg w' (show (0 : Int) ≤ ((d.take cnt).length : Nat) by omega)]

/-- **C38** the same with `NECO_BURST` ≥ 0 -/
theorem C38_burst_ends {burst cnt : Nat} {dl : Int} {d : List UInt8} {t : Round} {post : List Round} (hs : t.sys = .data d) (ht : dl < MAX → t.now ≤ dl) :
    ∀ (pre : List Round) (n : Nat) (w : W), w.canceled = false → w.deadlined = false →
      (∀ u ∈ pre, (u.sys = .err sysEINTR ∨ u.sys = .err sysEAGAIN) ∧ u.cancel = false ∧ u.expire = false ∧ (dl < MAX → u.now ≤ dl)) →
      ∃ n' w', read burst cnt dl (pre ++ t :: post) n w = some (.ret (d.take cnt).length, d.take cnt, n', w') ∧ w'.inp = w.inp ++ d.take cnt := by
  have key : ∀ (pre : List Round) (n : Nat) (w : W), w.canceled = false → w.deadlined = false →
      (∀ u ∈ pre, (u.sys = .err sysEINTR ∨ u.sys = .err sysEAGAIN) ∧ u.cancel = false ∧ u.expire = false ∧ (dl < MAX → u.now ≤ dl)) →
      ∃ n' w', readDl burst cnt dl (pre ++ t :: post) n w = some (.ret (d.take cnt).length, d.take cnt, n', w') ∧ w'.inp = w.inp ++ d.take cnt := by
    intro pre
    induction pre with
    | nil =>
      intro n w h1 h2 _
      rw [List.nil_append, readDl, checkdl_calm h1 h2 ht]
      simp only [ne_eq, not_true, if_false, hs]
      exact ⟨_, _, rfl, rfl⟩
    | cons u pre ih =>
      intro n w h1 h2 hp
      obtain ⟨u1, u2, u3, u4⟩ := hp u (by simp)
      obtain ⟨e, he, ha⟩ : ∃ e, u.sys = .err e ∧ (e = sysEINTR ∨ e = sysEAGAIN) := by
        rcases u1 with u1 | u1
        · exact ⟨_, u1, .inl rfl⟩
        · exact ⟨_, u1, .inr rfl⟩
      rw [List.cons_append, readDl, checkdl_calm h1 h2 u4]
      simp only [ne_eq, not_true, if_false, he, if_pos ha]
      by_cases hb : n = burst
      · simp only [if_pos hb, pass, h1, u2, u3, Bool.or_self, Bool.false_and, Bool.false_eq_true, if_false]
        exact ih _ _ rfl rfl (fun v hv => hp v (by simp [hv]))
      · simp only [if_neg hb]
        exact ih _ _ (by simp [scoYield, h1, u2]) (by simp [scoYield, h2]) (fun v hv => hp v (by simp [hv]))
  intro pre n w h1 h2 hp
  obtain ⟨n', w', q1, q2⟩ := key pre n w h1 h2 hp
  unfold read
  rw [q1]
  obtain ⟨g1, _⟩ := guardA_w (.ret (d.take cnt).length) w'
  refine ⟨n', (guardA (.ret (d.take cnt).length) w').2, ?_, g1.trans q2⟩
  simp only [guardA_nonneg w' (show (0 : Int) ≤ ((d.take cnt).length : Nat) by omega)]

/-- `NECO_BURST` = 1: two tries, then the coroutine waits; data; a deadline; a cancellation while it yields does not terminate it but is told in the next round -/
example : ∃ w', read 1 2 MAX [{ sys := .err sysEAGAIN }, { sys := .err sysEINTR, others := fun _ => 1 }, { sys := .data [7, 8, 9] }] 0 {} = some (.ret 2, [7, 8], 1, w') ∧ w'.inp = [7, 8] := ⟨_, rfl, rfl⟩
example : ∃ w', read 1 2 10 [{ sys := .err sysEAGAIN }, { sys := .data [1], now := 11 }] 0 {} = some (.ret (-1), [], 1, w') ∧ w'.errno = sysETIMEDOUT := ⟨_, rfl, rfl⟩
example : ∃ w', read 1 2 MAX [{ sys := .err sysEAGAIN, cancel := true }, { sys := .data [1] }] 0 { async := false } = some (.ret (-1), [], 1, w') ∧ w'.errno = sysECANCELED := ⟨_, rfl, rfl⟩

end Neco.Burst
