import Verif.Spec.Llco
/-! # Invariant of the switching code -/
namespace Neco.Llco

def Pc.new : Pc → Bool
  | .fresh | .enter | .callback true => true
  | _ => false

/-- the ended contexts whose cleanup function was called, or is not there -/
def cleared (s : S) : List Nat := if s.needed = true ∧ (s.pc = .back ∨ s.pc = .fresh) then s.ended.tail else s.ended

def rels (born : Nat → Desc) (l : List Nat) : List Desc := (l.map born).filter (·.cleanup)

structure Inv (s : S) : Prop where
  nf : s.fault = false
  nd : s.pc ≠ .dead
  le : s.on ≤ s.made
  lv : s.on ∉ s.ended
  sus : ∀ k, k ≤ s.made → k ≠ s.on → s.sus k = true
  rng : ∀ k ∈ s.ended, 0 < k ∧ k ≤ s.made
  once : s.ended.Nodup
  gone : ∀ k, s.gone k = true → k ∈ cleared s
  gn : ∀ k ∈ cleared s, (s.born k).cleanup = true → s.gone k = true
  pl : ∀ k, 0 < k → k ≤ s.made → s.place k = (s.born k).stack
  slf : ∀ k, 0 < k → k ≤ s.made → k ≠ s.on ∨ s.pc.new = false → s.self k = s.born k
  new : s.pc.new = true → s.desc = s.born s.on ∧ 0 < s.on
  cur : s.pc.new = false → s.cur.getD 0 = s.on
  dist : ∀ k j, 0 < k → k ≤ s.made → 0 < j → j ≤ s.made → k ≠ j → s.gone k = false → s.gone j = false → s.place k ≠ s.place j
  usr : s.pc = .user ∨ s.pc = .enter → s.needed = false
  act : s.active = true ↔ ∃ b, s.pc = .callback b
  cb : ∀ b, s.pc = .callback b → s.needed = true
  rel : s.rel = rels s.born (cleared s)
  back : s.needed = true → s.pc = .back ∨ s.pc = .fresh → ∃ k l, s.ended = k :: l ∧ s.cdesc = s.born k

theorem inv_init : Inv {} := by
  refine ⟨rfl, by simp, Nat.le_refl _, by simp, ?_, by simp, List.nodup_nil, by simp, by simp [cleared], ?_, ?_, by simp [Pc.new], by simp, ?_, by simp, by simp, by simp, rfl, by simp⟩
  · intro k h1 h2; simp only at h1 h2; omega
  · intro k h1 h2; simp only at h2; omega
  · intro k h1 h2; simp only at h2; omega
  · intro k j h1 h2; simp only at h2; omega

theorem rels_congr {b b' : Nat → Desc} {l : List Nat} (h : ∀ k ∈ l, b k = b' k) : rels b l = rels b' l := by
  unfold rels; rw [List.map_congr_left h]

/-- leaving a context, for good or not -/
def leave (s : S) (final : Bool) : S := if final = true then { s with needed := true, cdesc := s.self (s.cur.getD 0), ended := s.cur.getD 0 :: s.ended } else s

/-- what holds on the way to another context -/
theorem cleared_user {s : S} (h : s.pc = .user) : cleared s = s.ended := by unfold cleared; rw [h]; simp

theorem inv_jump {s : S} (h : Inv s) (hu : s.pc = .user) {final : Bool} {t : Nat} (c : Option Nat) (hc : c.getD 0 = t) (ht : t ≤ s.made) (hne : t ≠ s.on) (hl : t ∉ s.ended)
    (hf : final = true → s.on ≠ 0) : Inv (jump { leave s final with cur := c } (s.cur.getD 0) t) := by
  have hcl := cleared_user hu
  obtain ⟨nf, nd, le, lv, sus, rng, once, gone, gn, pl, slf, new, cur, dist, usr, act, cb, rel, back⟩ := h
  have hcur := cur (by rw [hu]; rfl)
  have hn := usr (.inl hu)
  have hact : s.active = false := by
    cases he : s.active with
    | false => rfl
    | true => obtain ⟨b, hb⟩ := act.1 he; rw [hu] at hb; cases hb
  have hg : s.gone t = false := by
    cases he : s.gone t with
    | false => rfl
    | true => have := gone t he; rw [hcl] at this; exact absurd this hl
  rw [hcl] at gone gn rel
  rw [hcur]
  unfold jump
  have e1 : (leave s final).sus = s.sus ∧ (leave s final).gone = s.gone := by unfold leave; split <;> exact ⟨rfl, rfl⟩
  rw [if_pos (by simp only [set, e1]; rw [if_neg hne]; exact ⟨sus t ht hne, hg⟩)]
  have hsus : ∀ k, k ≤ s.made → k ≠ t → set (set s.sus s.on true) t false k = true := by
    intro k h1 h2; unfold set; rw [if_neg h2]; split
    · rfl
    · next h3 => exact sus k h1 h3
  cases final with
  | false =>
    simp only [leave, Bool.false_eq_true, if_false]
    refine ⟨nf, by simp, ht, hl, hsus, rng, once, ?_, by simpa [cleared, hn] using gn, pl, ?_, by simp [Pc.new], fun _ => hc, dist, by simp, by simp [hact], by simp, ?_, ?_⟩
    · intro k hk; have := gone k hk; simpa [cleared, hn] using this
    · intro k h1 h2 _
      exact slf k h1 h2 (.inr (by rw [hu]; rfl))
    · simpa [cleared, hn] using rel
    · intro h; dsimp only at h; rw [hn] at h; cases h
  | true =>
    have h0 := hf rfl
    simp only [leave, if_true, hcur]
    refine ⟨nf, by simp, ht, ?_, hsus, ?_, ?_, ?_, by simpa [cleared] using gn, pl, ?_, by simp [Pc.new], fun _ => hc, dist, by simp, by simp [hact], by simp, ?_, ?_⟩
    · simp only [List.mem_cons, not_or]; exact ⟨hne, hl⟩
    · intro k hk
      rcases List.mem_cons.1 hk with rfl | hk
      · exact ⟨Nat.pos_of_ne_zero h0, le⟩
      · exact rng k hk
    · exact List.nodup_cons.2 ⟨lv, once⟩
    · intro k hk; have := gone k hk; simpa [cleared] using this
    · intro k h1 h2 _
      exact slf k h1 h2 (.inr (by rw [hu]; rfl))
    · simpa [cleared] using rel
    · intro _ _
      exact ⟨s.on, s.ended, rfl, slf s.on (Nat.pos_of_ne_zero h0) le (.inr (by rw [hu]; rfl))⟩

theorem inv_enter {s : S} (h : Inv s) (hu : s.pc = .user) {final : Bool} (d : Desc) (hd : ∀ k, 0 < k → k ≤ s.made → s.gone k = false → s.place k ≠ d.stack)
    (hf : final = true → s.on ≠ 0) : Inv (enter { leave s final with desc := d } (s.cur.getD 0) d) := by
  have hcl := cleared_user hu
  obtain ⟨nf, nd, le, lv, sus, rng, once, gone, gn, pl, slf, new, cur, dist, usr, act, cb, rel, back⟩ := h
  have hcur := cur (by rw [hu]; rfl)
  have hn := usr (.inl hu)
  have hact : s.active = false := by
    cases he : s.active with
    | false => rfl
    | true => obtain ⟨b, hb⟩ := act.1 he; rw [hu] at hb; cases hb
  rw [hcl] at gone gn rel
  rw [hcur]
  unfold enter
  have hsus : ∀ k, k ≤ s.made + 1 → k ≠ s.made + 1 → set s.sus s.on true k = true := by
    intro k h1 h2; unfold set; split
    · rfl
    · next h3 => exact sus k (by omega) h3
  have hpl : ∀ k, 0 < k → k ≤ s.made + 1 → set s.place (s.made + 1) d.stack k = (set s.born (s.made + 1) d k).stack := by
    intro k h1 h2; unfold set; split
    · rfl
    · exact pl k h1 (by omega)
  have hslf : ∀ k, 0 < k → k ≤ s.made + 1 → k ≠ s.made + 1 ∨ (Pc.new Pc.fresh) = false → s.self k = set s.born (s.made + 1) d k := by
    intro k h1 h2 h3
    rcases h3 with h3 | h3
    · unfold set; rw [if_neg h3]; exact slf k h1 (by omega) (.inr (by rw [hu]; rfl))
    · cases h3
  have hdist : ∀ k j, 0 < k → k ≤ s.made + 1 → 0 < j → j ≤ s.made + 1 → k ≠ j → s.gone k = false → s.gone j = false → set s.place (s.made + 1) d.stack k ≠ set s.place (s.made + 1) d.stack j := by
    intro k j a b c e f g i
    unfold set
    split <;> split
    · omega
    · exact fun h => hd j c (by omega) i h.symm
    · exact fun h => hd k a (by omega) g h
    · exact dist k j a (by omega) c (by omega) f g i
  have hb : ∀ k ∈ s.ended, s.born k = set s.born (s.made + 1) d k := by
    intro k hk; have := rng k hk; unfold set; rw [if_neg (by omega)]
  have hgn : ∀ k ∈ s.ended, (set s.born (s.made + 1) d k).cleanup = true → s.gone k = true := by
    intro k hk; rw [← hb k hk]; exact gn k hk
  cases final with
  | false =>
    simp only [leave, Bool.false_eq_true, if_false]
    refine ⟨nf, by simp, Nat.le_refl _, fun h => by have := rng _ h; dsimp only at this; omega, hsus, fun k hk => ⟨(rng k hk).1, Nat.le_succ_of_le (rng k hk).2⟩, once, ?_, by simpa [cleared, hn] using hgn, hpl, hslf, fun _ => ⟨by simp [set], Nat.succ_pos _⟩, by simp [Pc.new], hdist, by simp, by simp [hact], by simp, ?_, ?_⟩
    · intro k hk; have := gone k hk; simpa [cleared, hn] using this
    · rw [rels_congr hb] at rel; simpa [cleared, hn] using rel
    · intro h; dsimp only at h; rw [hn] at h; cases h
  | true =>
    have h0 := hf rfl
    simp only [leave, if_true, hcur]
    refine ⟨nf, by simp, Nat.le_refl _, ?_, hsus, ?_, ?_, ?_, by simpa [cleared] using hgn, hpl, hslf, fun _ => ⟨by simp [set], Nat.succ_pos _⟩, by simp [Pc.new], hdist, by simp, by simp [hact], by simp, ?_, ?_⟩
    · intro h
      rcases List.mem_cons.1 h with h | h
      · dsimp only at h; omega
      · have := rng _ h; dsimp only at this; omega
    · intro k hk
      rcases List.mem_cons.1 hk with rfl | hk
      · exact ⟨Nat.pos_of_ne_zero h0, Nat.le_succ_of_le le⟩
      · exact ⟨(rng k hk).1, Nat.le_succ_of_le (rng k hk).2⟩
    · exact List.nodup_cons.2 ⟨lv, once⟩
    · intro k hk; have := gone k hk; simpa [cleared] using this
    · rw [rels_congr hb] at rel; simpa [cleared] using rel
    · intro _ _
      refine ⟨s.on, s.ended, rfl, ?_⟩
      dsimp only; unfold set; rw [if_neg (by omega)]
      exact slf s.on (Nat.pos_of_ne_zero h0) le (.inr (by rw [hu]; rfl))

theorem inv_last {s : S} (h : Inv s) {new : Bool} (hp : s.pc = if new then .fresh else .back) : Inv (cleanupLast s new) := by
  obtain ⟨nf, nd, le, lv, sus, rng, once, gone, gn, pl, slf, hnew, cur, dist, usr, act, cb, rel, back⟩ := h
  have hbf : s.pc = .back ∨ s.pc = .fresh := by rw [hp]; cases new <;> simp
  have hpn : s.pc.new = new := by rw [hp]; cases new <;> rfl
  have hact : s.active = false := by
    cases he : s.active with
    | false => rfl
    | true => obtain ⟨b, hb⟩ := act.1 he; rw [hb] at hbf; simp at hbf
  have key : ∀ p : Pc, p = (if new then Pc.enter else Pc.user) → p.new = new ∧ p ≠ .dead ∧ p ≠ .back ∧ p ≠ .fresh ∧ ∀ b, p ≠ .callback b := by
    intro p e; subst e; cases new <;> simp [Pc.new]
  unfold cleanupLast
  by_cases hn : s.needed = true
  case neg =>
    rw [if_neg hn]
    have hn : s.needed = false := by simpa using hn
    generalize he : (if new = true then Pc.enter else Pc.user) = p
    obtain ⟨k1, k2, k3, k4, k5⟩ := key p he.symm
    have hc : cleared s = s.ended := by unfold cleared; rw [hn]; simp
    have hc' : cleared { s with pc := p } = s.ended := by unfold cleared; dsimp only; rw [hn]; simp
    refine ⟨nf, k2, le, lv, sus, rng, once, ?_, (by rw [hc']; rw [hc] at gn; exact gn), pl, ?_, ?_, ?_, dist, fun _ => hn, ?_, ?_, ?_, ?_⟩
    · rw [hc']; rw [hc] at gone; exact gone
    · intro k a b c; exact slf k a b (by rw [hpn, ← k1]; exact c)
    · intro c; exact hnew (by rw [hpn, ← k1]; exact c)
    · intro c; exact cur (by rw [hpn, ← k1]; exact c)
    · simp [hact, k5]
    · intro b hb; exact absurd hb (k5 b)
    · rw [hc']; rw [hc] at rel; exact rel
    · rintro - (h | h)
      · exact absurd h k3
      · exact absurd h k4
  case pos =>
    rw [if_pos hn]
    obtain ⟨k, l, hk, hcd⟩ := back hn hbf
    have hkr := rng k (by rw [hk]; exact .head _)
    have hkl : k ∉ l := by rw [hk] at once; exact (List.nodup_cons.1 once).1
    have hc : cleared s = l := by unfold cleared; rw [if_pos ⟨hn, hbf⟩, hk]; rfl
    have hkg : s.gone k = false := by
      cases he : s.gone k with
      | false => rfl
      | true => have := gone k he; rw [hc] at this; exact absurd this hkl
    by_cases hcc : s.cdesc.cleanup = true
    case neg =>
      rw [if_neg hcc]
      have hcc : s.cdesc.cleanup = false := by simpa using hcc
      generalize he : (if new = true then Pc.enter else Pc.user) = p
      obtain ⟨k1, k2, k3, k4, k5⟩ := key p he.symm
      have hc' : cleared { s with needed := false, pc := p } = s.ended := by unfold cleared; simp
      refine ⟨nf, k2, le, lv, sus, rng, once, ?_, ?_, pl, ?_, ?_, ?_, dist, fun _ => rfl, ?_, ?_, ?_, ?_⟩
      · intro j hj; rw [hc', hk]; have := gone j hj; rw [hc] at this; exact .tail _ this
      · intro j hj hcj
        rw [hc', hk] at hj
        rcases List.mem_cons.1 hj with rfl | hj
        · dsimp only at hcj; rw [← hcd, hcc] at hcj; cases hcj
        · exact gn j (by rw [hc]; exact hj) hcj
      · intro k a b c; exact slf k a b (by rw [hpn, ← k1]; exact c)
      · intro c; exact hnew (by rw [hpn, ← k1]; exact c)
      · intro c; exact cur (by rw [hpn, ← k1]; exact c)
      · simp [hact, k5]
      · intro b hb; exact absurd hb (k5 b)
      · rw [hc', hk]
        rw [hc] at rel
        dsimp only
        rw [rel]; unfold rels
        rw [List.map_cons, List.filter_cons, ← hcd, hcc]; simp
      · intro h; cases h
    case pos =>
      rw [if_pos hcc]
      have hpk : s.place k = s.cdesc.stack := by rw [pl k hkr.1 hkr.2, hcd]
      have hon : s.on ≠ k := by rintro rfl; exact lv (by rw [hk]; exact .head _)
      have hong : s.gone s.on = false := by
        cases he : s.gone s.on with
        | false => rfl
        | true => have := gone _ he; rw [hc] at this; exact absurd (by rw [hk]; exact .tail _ this) lv
      have hfl : (s.on ≠ 0 && s.place s.on == s.cdesc.stack) = false := by
        by_cases h0 : s.on = 0
        · simp [h0]
        · have := dist s.on k (Nat.pos_of_ne_zero h0) le hkr.1 hkr.2 hon hong hkg
          rw [hpk] at this; simp [this]
      refine ⟨by dsimp only; rw [nf]; simpa using hfl, by simp, le, lv, sus, rng, once, ?_, ?_, pl, ?_, ?_, ?_, ?_, by simp, by simp, fun _ _ => hn, ?_, ?_⟩
      · intro j hj
        have hcl : cleared { s with active := true, pc := .callback new, rel := s.cdesc :: s.rel, gone := fun k => s.gone k || (k ≠ 0 && k ≤ s.made && s.place k == s.cdesc.stack), fault := s.fault || (s.on ≠ 0 && s.place s.on == s.cdesc.stack) } = s.ended := by
          unfold cleared; simp
        rw [hcl, hk]
        dsimp only at hj
        rw [Bool.or_eq_true] at hj
        cases hgj : s.gone j with
        | true => have := gone j hgj; rw [hc] at this; exact .tail _ this
        | false =>
          rw [hgj] at hj
          simp only [Bool.false_eq_true, false_or, Bool.and_eq_true, decide_eq_true_iff, beq_iff_eq] at hj
          by_cases e : j = k
          · rw [e]; exact .head _
          · have := dist j k (Nat.pos_of_ne_zero (by simpa using hj.1.1)) (by simpa using hj.1.2) hkr.1 hkr.2 e hgj hkg
            rw [hpk] at this; exact absurd hj.2 this
      · intro j hj hcj
        have hj : j ∈ s.ended := by simpa [cleared] using hj
        rw [hk] at hj
        dsimp only
        rcases List.mem_cons.1 hj with rfl | hj
        · simp [hpk, hkr.2, Nat.ne_of_gt hkr.1]
        · rw [gn j (by rw [hc]; exact hj) hcj]; rfl
      · intro j a b c; exact slf j a b (by rw [hpn]; cases new <;> simpa [Pc.new] using c)
      · intro c; exact hnew (by rw [hpn]; cases new <;> simpa [Pc.new] using c)
      · intro c; exact cur (by rw [hpn]; cases new <;> simpa [Pc.new] using c)
      · intro a b h1 h2 h3 h4 h5 h6 h7
        simp only [Bool.or_eq_false_iff] at h6 h7
        exact dist a b h1 h2 h3 h4 h5 h6.1 h7.1
      · have : cleared { s with active := true, pc := .callback new, rel := s.cdesc :: s.rel, gone := fun k => s.gone k || (k ≠ 0 && k ≤ s.made && s.place k == s.cdesc.stack), fault := s.fault || (s.on ≠ 0 && s.place s.on == s.cdesc.stack) } = s.ended := by
          unfold cleared; simp
        rw [this, hk]
        rw [hc] at rel
        dsimp only
        rw [rel]; unfold rels
        rw [List.map_cons, List.filter_cons, ← hcd, hcc]; simp
      · simp

theorem Inv.inactive {s : S} (h : Inv s) (hu : s.pc = .user) : s.active = false := by
  cases he : s.active with
  | false => rfl
  | true => obtain ⟨b, hb⟩ := h.act.1 he; rw [hu] at hb; cases hb

theorem switch_eq {s : S} (h : Inv s) (hu : s.pc = .user) {co : Option Nat} {f : Bool} :
    switch s co f = if co.getD 0 = s.on then s else if s.cur.isSome ∧ co.isSome ∧ f = false then jump { leave s f with cur := co } (s.cur.getD 0) (co.getD 0) else jump { leave s f with cur := some (co.getD 0) } (s.cur.getD 0) (co.getD 0) := by
  have hcur := h.cur (by rw [hu]; rfl)
  have ha := h.inactive hu
  unfold switch switch0
  rw [ha, hcur]
  by_cases hc : co.getD 0 = s.on
  · rw [if_pos hc]
    rw [if_neg, if_neg (by simp), if_pos ⟨rfl, hc⟩]
    rintro ⟨-, h1, h2, h3, -⟩
    cases hsc : s.cur with
    | none => rw [hsc] at h1; cases h1
    | some x => cases hcc : co with
      | none => rw [hcc] at h2; cases h2
      | some y => rw [hsc] at hcur h3; rw [hcc] at hc h3; simp at hcur hc h3; omega
  · rw [if_neg hc]
    have hne : s.cur.isSome → co.isSome → s.cur ≠ co := by
      intro h1 h2 e; rw [← e, hcur] at hc; exact hc rfl
    by_cases hx : s.cur.isSome ∧ co.isSome ∧ f = false
    · rw [if_pos hx, if_pos ⟨rfl, hx.1, hx.2.1, hne hx.1 hx.2.1, hx.2.2⟩]
      rw [hx.2.2]; simp [leave, ha]
    · rw [if_neg hx, if_neg (fun h => hx ⟨h.2.1, h.2.2.1, h.2.2.2.2⟩), if_neg (by simp), if_neg (fun h => hc h.2)]
      cases f <;> simp [leave, hcur, ha]

theorem inv_step {s s' : S} {a : Act} (h : Inv s) (hok : Rules s a) (hs : step s a = some s') : Inv s' := by
  unfold step at hs
  rw [if_neg (by rw [h.nf]; simp)] at hs
  split at hs
  · next d f hu =>
    cases hs
    obtain ⟨-, h2, h3⟩ := hok
    have := inv_enter h hu (final := f) d h2 h3
    unfold start switch0
    rw [if_neg (by rw [h.inactive hu]; simp), if_neg (by simp)]
    unfold leave at this
    cases f <;> exact this
  · next hu => rw [hok.1] at hu; cases hu
  · next co f hu =>
    cases hs
    obtain ⟨-, h2, h3, h4⟩ := hok
    rw [switch_eq h hu]
    split
    · exact h
    · next hne =>
      split
      · exact inv_jump h hu co rfl h2 hne h3 (fun e => (h4 e).1)
      · exact inv_jump h hu (some (co.getD 0)) rfl h2 hne h3 (fun e => (h4 e).1)
  · next hu => rw [hok.1] at hu; cases hu
  · exact absurd hok (by simp [Rules])
  · next hu => cases hs; exact inv_last h (by rw [hu]; rfl)
  · next hu => cases hs; exact inv_last h (by rw [hu]; rfl)
  · next hu =>
    cases hs
    obtain ⟨nf, nd, le, lv, sus, rng, once, gone, gn, pl, slf, new, cur, dist, usr, act, cb, rel, back⟩ := h
    have hn := usr (.inr hu)
    have hnew := new (by rw [hu]; rfl)
    have hact : s.active = false := by
      cases he : s.active with
      | false => rfl
      | true => obtain ⟨b, hb⟩ := act.1 he; rw [hu] at hb; cases hb
    have hc : cleared s = s.ended := by unfold cleared; rw [hn]; simp
    rw [hc] at gone gn rel
    refine ⟨nf, by simp, le, lv, sus, rng, once, ?_, by simpa [cleared] using gn, pl, ?_, by simp [Pc.new], fun _ => rfl, dist, fun _ => hn, by simp [hact], by simp, ?_, by simp⟩
    · intro k hk; have := gone k hk; simpa [cleared] using this
    · intro k a b _
      dsimp only [set]; split
      · next e => rw [e]; exact hnew.1
      · next e => exact slf k a b (.inl e)
    · simpa [cleared] using rel
  · next b hu =>
    cases hs
    obtain ⟨nf, nd, le, lv, sus, rng, once, gone, gn, pl, slf, new, cur, dist, usr, act, cb, rel, back⟩ := h
    have hc : cleared s = s.ended := by unfold cleared; rw [hu]; simp
    rw [hc] at gone gn rel
    have hpn : (if b = true then Pc.enter else Pc.user).new = s.pc.new := by rw [hu]; cases b <;> rfl
    refine ⟨nf, by cases b <;> simp, le, lv, sus, rng, once, ?_, by simpa [cleared] using gn, pl, ?_, ?_, ?_, dist, fun _ => rfl, by cases b <;> simp, by cases b <;> simp, ?_, by simp⟩
    · intro k hk; have := gone k hk; simpa [cleared] using this
    · intro k a c e; exact slf k a c (by rw [← hpn]; exact e)
    · intro e; exact new (by rw [← hpn]; exact e)
    · intro e; exact cur (by rw [← hpn]; exact e)
    · simpa [cleared] using rel
  · cases hs

theorem inv_reach {s : S} (r : Reach Rules s) : Inv s := by
  induction r with
  | init => exact inv_init
  | step _ a hok hs ih => exact inv_step ih hok hs

end Neco.Llco
