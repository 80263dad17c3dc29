import Verif.Model.Addr
/-! # C46: TCP address parsing -/
namespace Neco.Addr

/-- Specification of bracket removal: `[h]` becomes `h`, anything else stays. -/
def Stripped (pre host : List UInt8) : Prop :=
  (∃ h, pre = 91 :: h ++ [93] ∧ host = h) ∨ ((¬ ∃ h, pre = 91 :: h ++ [93]) ∧ host = pre)

/-- `scan` never reads outside and finds the last colon among the first `i+1` bytes. -/
theorem scan_spec (s : List UInt8) : ∀ i, i < s.length →
    (∃ c, scan s i = some (some c) ∧ c ≤ i ∧ s[c]? = some 58 ∧ ∀ j, c < j → j ≤ i → s[j]? ≠ some 58) ∨
    (scan s i = some none ∧ ∀ j, j ≤ i → s[j]? ≠ some 58) := by
  intro i
  induction i with
  | zero =>
    intro h
    have hr : rd s 0 = some s[0] := by simp [rd, h]
    by_cases hc : s[0] = 58
    · left; refine ⟨0, by simp [scan, hr, hc], by omega, by simp [h, hc], by omega⟩
    · right; refine ⟨by simp [scan, hr, hc], ?_⟩
      intro j hj; obtain rfl : j = 0 := by omega
      simp [h, hc]
  | succ i ih =>
    intro h
    have hr : rd s (i + 1 : Nat) = some s[i+1] := by
      have : (0:Int) ≤ ((i + 1 : Nat) : Int) ∧ ((i + 1 : Nat) : Int) < s.length := by omega
      rw [rd, if_pos this, Int.toNat_natCast, List.getElem?_eq_getElem h]
    by_cases hc : s[i+1] = 58
    · left; refine ⟨i+1, by rw [scan, hr]; simp [hc], by omega, by simp [h, hc], by omega⟩
    · have e : scan s (i+1) = scan s i := by rw [scan, hr]; simp [hc]
      rcases ih (by omega) with ⟨c, h1, h2, h3, h4⟩ | ⟨h1, h2⟩
      · left; refine ⟨c, by rw [e, h1], by omega, h3, ?_⟩
        intro j hj hj'
        by_cases hji : j = i + 1
        · subst hji; simp [h, hc]
        · exact h4 j hj (by omega)
      · right; refine ⟨by rw [e, h1], ?_⟩
        intro j hj
        by_cases hji : j = i + 1
        · subst hji; simp [h, hc]
        · exact h2 j (by omega)

/-- the two cases of an address, as the specification sees them -/
theorem parse_cases (s : List UInt8) (a : Bool) :
    ((58 ∉ s) ∧ parse s a = some (.err (-2))) ∨
    (∃ pre port host, s = pre ++ 58 :: port ∧ 58 ∉ port ∧ Stripped pre host ∧
      parse s a = some (if a then .ok host port else .err (-4))) := by
  by_cases hs : s = []
  · left; subst hs; simp [parse, Err.INVAL]
  have hl : 0 < s.length := List.length_pos_iff.2 hs
  rcases scan_spec s (s.length - 1) (by omega) with ⟨c, h1, h2, h3, h4⟩ | ⟨h1, h2⟩
  · right
    have hc : c < s.length := by omega
    have hsc : s[c] = 58 := by simpa [hc] using h3
    have hsplit : s = s.take c ++ 58 :: s.drop (c+1) := by
      rw [← hsc, ← List.drop_eq_getElem_cons hc, List.take_append_drop]
    have hport : 58 ∉ s.drop (c+1) := by
      intro hm
      obtain ⟨k, hk⟩ := List.mem_iff_getElem?.1 hm
      rw [List.getElem?_drop] at hk
      have hk' : c + 1 + k < s.length := by
        rcases Nat.lt_or_ge (c+1+k) s.length with h | h
        · exact h
        · rw [List.getElem?_eq_none h] at hk; cases hk
      exact h4 _ (by omega) (by omega) hk
    have hr0 : rd s 0 = some s[0] := by simp [rd, hl]
    have hne : ¬ s.length = 0 := by omega
    -- does the host part have brackets?
    by_cases hb : ∃ h, s.take c = 91 :: h ++ [93]
    · obtain ⟨h, hh⟩ := hb
      refine ⟨s.take c, s.drop (c+1), h, hsplit, hport, Or.inl ⟨h, hh, rfl⟩, ?_⟩
      have hlen : c = h.length + 2 := by
        have := congrArg List.length hh
        simp at this; omega
      have hs' : s = 91 :: h ++ [93] ++ 58 :: s.drop (c+1) := by rw [← hh]; exact hsplit
      have e0 : s[0] = 91 := by
        have : s[0]? = some 91 := by rw [hs']; simp
        simpa [hl] using this
      have e1 : rd s ((c:Int) - 1) = some 93 := by
        have hi : (0:Int) ≤ (c:Int) - 1 ∧ (c:Int) - 1 < s.length := by omega
        rw [rd, if_pos hi]
        have : ((c:Int) - 1).toNat = h.length + 1 := by omega
        rw [this, hs']; simp
      have htake : (s.drop 1).take h.length = h := by
        rw [hs']; simp
      have hn : ¬ ((h.length:Int) < 0 ∨ s.length < 1 + h.length) := by omega
      have hcc : ((c:Int) - 2) = (h.length : Int) := by omega
      simp only [parse, hne, h1, hr0, e0, e1, if_true, if_false]
      simp only [Option.pure_def, Option.bind_eq_bind, Option.bind_some, e1, decide_true, if_true, hcc,
        Int.toNat_natCast, htake, hn, if_false]
      cases a <;> simp [Err.NOMEM]
    · refine ⟨s.take c, s.drop (c+1), s.take c, hsplit, hport, Or.inr ⟨hb, rfl⟩, ?_⟩
      -- the strip test fails
      have hstrip : (if s[0] = 91 then do let e ← rd s ((c:Int) - 1); pure (decide (e = 93)) else pure false)
          = some false := by
        by_cases e0 : s[0] = 91
        · have hc1 : 0 < c := by
            rcases Nat.eq_zero_or_pos c with h | h
            · subst h; rw [e0] at hsc; exact absurd hsc (by decide)
            · exact h
          have hi : (0:Int) ≤ (c:Int) - 1 ∧ (c:Int) - 1 < s.length := by omega
          have ht : ((c:Int) - 1).toNat = c - 1 := by omega
          have hlt : c - 1 < s.length := by omega
          have e1 : rd s ((c:Int) - 1) = some s[c-1] := by
            rw [rd, if_pos hi, ht, List.getElem?_eq_getElem hlt]
          rw [if_pos e0, e1]
          by_cases e2 : s[c-1] = 93
          · exfalso; apply hb
            have hc2 : 2 ≤ c := by
              rcases Nat.lt_or_ge c 2 with h | h
              · obtain rfl : c = 1 := by omega
                simp at e2; rw [e0] at e2; exact absurd e2 (by decide)
              · exact h
            refine ⟨(s.drop 1).take (c-2), ?_⟩
            apply List.ext_getElem
            · simp; omega
            · intro k hk1 hk2
              simp only [List.length_take] at hk1
              rw [List.getElem_take]
              by_cases hk0 : k = 0
              · subst hk0; simpa using e0
              · by_cases hkl : k = c - 1
                · subst hkl
                  rw [List.getElem_append_right (by simp; omega)]
                  simp; exact e2
                · rw [List.getElem_append_left (by simp; omega)]
                  rw [List.getElem_cons, dif_neg hk0]
                  simp only [List.getElem_take, List.getElem_drop]
                  congr 1; omega
          · simp [e2]
        · simp [e0]
      have hn : ¬ ((c:Int) < 0 ∨ s.length < 0 + c) := by omega
      simp only [parse, hne, h1, hr0, if_false]
      simp only [Option.pure_def, Option.bind_eq_bind, Option.bind_some] at hstrip ⊢
      rw [hstrip]
      simp only [Option.bind_some, Bool.false_eq_true, if_false, Int.toNat_natCast, List.drop_zero, hn]
      cases a <;> simp [Err.NOMEM]
  · left
    refine ⟨?_, ?_⟩
    · intro hm
      obtain ⟨k, hk⟩ := List.mem_iff_getElem?.1 hm
      have hk' : k < s.length := by
        rcases Nat.lt_or_ge k s.length with h | h
        · exact h
        · rw [List.getElem?_eq_none h] at hk; cases hk
      exact h2 k (by omega) hk
    · have hne : ¬ s.length = 0 := by omega
      simp [parse, hne, h1, Err.INVAL, hs]

/-- C46. No byte string makes the parser read or copy outside the string. -/
theorem C46_no_out_of_bounds (s : List UInt8) (a : Bool) : parse s a ≠ none := by
  rcases parse_cases s a with ⟨_, h⟩ | ⟨_, _, _, _, _, _, h⟩ <;> rw [h] <;> simp

/-- C46. The address is rejected as invalid exactly when it contains no colon. -/
theorem C46_reject_iff (s : List UInt8) : parse s true = some (.err (-2)) ↔ 58 ∉ s := by
  rcases parse_cases s true with ⟨h1, h⟩ | ⟨p, q, r, h1, _, _, h⟩
  · exact ⟨fun _ => h1, fun _ => h⟩
  · rw [h]; constructor
    · simp
    · intro h2; exfalso; apply h2; rw [h1]; simp

/-- C46. For every text before the last colon and every port text after it, parsing returns the port
text and the host text with surrounding square brackets removed. -/
theorem C46_split_last_colon (pre port host : List UInt8) (hp : 58 ∉ port) (hst : Stripped pre host) :
    parse (pre ++ 58 :: port) true = some (.ok host port) := by
  rcases parse_cases (pre ++ 58 :: port) true with ⟨h1, _⟩ | ⟨p, q, r, h1, h2, h3, h⟩
  · exfalso; apply h1; simp
  · have uniq : p = pre ∧ q = port := by
      rw [List.append_eq_append_iff] at h1
      rcases h1 with ⟨a', e1, e2⟩ | ⟨a', e1, e2⟩
      · cases a' with
        | nil => simp at e1 e2; exact ⟨e1, e2.symm⟩
        | cons x xs =>
          simp at e2; exfalso; apply hp; rw [e2.2]; simp
      · cases a' with
        | nil => simp at e1 e2; exact ⟨e1.symm, e2⟩
        | cons x xs =>
          simp at e2; exfalso; apply h2; rw [e2.2]; simp
    obtain ⟨rfl, rfl⟩ := uniq
    have hr : r = host := by
      rcases h3 with ⟨x, e1, e2⟩ | ⟨e1, e2⟩ <;> rcases hst with ⟨y, f1, f2⟩ | ⟨f1, f2⟩
      · rw [e1] at f1; simp at f1; rw [e2, f2, f1]
      · exact absurd ⟨x, e1⟩ f1
      · exact absurd ⟨y, f1⟩ e1
      · rw [e2, f2]
    rw [h, hr]; rfl

-- "[::1]:80" and "a:b:1", ":9"
example : Stripped [91,58,58,49,93] [58,58,49] := Or.inl ⟨[58,58,49], rfl, rfl⟩
example : parse [91,58,58,49,93,58,56,48] true = some (.ok [58,58,49] [56,48]) := by decide
example : parse [97,58,98,58,49] true = some (.ok [97,58,98] [49]) := by decide
example : parse [58,57] true = some (.ok [] [57]) := by decide

end Neco.Addr
