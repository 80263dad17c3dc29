import Verif.Spec.Stack

/-! # Helper lemmas about the stack allocator -/

namespace Neco.Stack

theorem align_spec {size b k : Nat} (hb : b = 2 ^ k) (h : size + b < W) :
    b ∣ alignSize size b ∧ size ≤ alignSize size b ∧ alignSize size b ≤ size + b ∧ b ≤ alignSize size b := by
  have hp : 0 < b := by rw [hb]; exact Nat.two_pow_pos k
  have hm : size &&& (b - 1) = size % b := by rw [hb]; exact Nat.and_two_pow_sub_one_eq_mod _ _
  unfold alignSize
  rw [hm]
  have hlt := Nat.mod_lt size hp
  have hd := Nat.div_add_mod size b
  split
  · exact ⟨Nat.dvd_refl _, by omega, by omega, Nat.le_refl _⟩
  · split
    · have : (size + b - size % b) = b * (size / b + 1) := by rw [Nat.mul_add]; omega
      rw [Nat.mod_eq_of_lt (by omega)]
      exact ⟨⟨_, this⟩, by omega, by omega, by omega⟩
    · rename_i h1 h2
      have h3 : size % b = 0 := by simpa using h2
      exact ⟨Nat.dvd_of_mod_eq_zero h3, by omega, by omega, by omega⟩

/-- gap between stacks -/
def G (c : Cfg) : Nat := gapOf c.gapsz c.pagesz
/-- offset of the first stack -/
def O (c : Cfg) : Nat := alignSize hdrSize c.pagesz + G c

/-- the numbers of a configuration -/
structure CfgOk (c : Cfg) : Prop where
  page : 32 ≤ c.pagesz
  st : c.pagesz ≤ c.stacksz
  gap : c.pagesz ≤ G c
  hdr : hdrSize ≤ alignSize hdrSize c.pagesz
  def0 : 0 < c.defcap
  max0 : 0 < c.maxcap
  fits : O c + (c.stacksz + G c) * c.maxcap < W

theorem cfgOk {o : Opts} {p : Nat} (h : Sane o p) : CfgOk (mgrInit o p) := by
  obtain ⟨⟨k, hk⟩, hp, hw⟩ := h
  have hm : 0 < (mgrInit o p).maxcap := by simp only [mgrInit]; split <;> omega
  have hg : 0 < (mgrInit o p).gapsz := by simp only [mgrInit]; split <;> omega
  have hd : 0 < (mgrInit o p).defcap := by simp only [mgrInit]; split <;> omega
  have hpg : (mgrInit o p).pagesz = p := rfl
  have hst : (mgrInit o p).stacksz = alignSize (if o.stacksz ≠ 0 then o.stacksz else 8388608) p := rfl
  generalize (if o.stacksz ≠ 0 then o.stacksz else 8388608) = st at *
  generalize mgrInit o p = c at *
  have h1 : (st + c.gapsz + 2 * p) ≤ (st + c.gapsz + 2 * p) * c.maxcap := Nat.le_mul_of_pos_right _ hm
  have a1 := align_spec (size := hdrSize) hk (by omega)
  have a2 := align_spec (size := c.gapsz) hk (by omega)
  have a3 := align_spec (size := st) hk (by omega)
  have hgo : G c = alignSize c.gapsz p := by unfold G gapOf; rw [if_neg (by omega), hpg]
  refine ⟨by omega, by omega, by omega, by rw [hpg]; omega, hd, hm, ?_⟩
  have h2 : (c.stacksz + G c) * c.maxcap ≤ (st + c.gapsz + 2 * p) * c.maxcap := Nat.mul_le_mul_right _ (by omega)
  unfold O
  rw [hpg]
  omega

theorem cap_bound {c : Cfg} (h : CfgOk c) {n : Nat} (hn : n ≤ c.maxcap) : O c + (c.stacksz + G c) * n < W := by
  have := Nat.mul_le_mul_left (c.stacksz + G c) hn
  have := h.fits
  omega

theorem off0_eq {c : Cfg} (h : CfgOk c) : off0 c.gapsz c.pagesz = O c := by
  have := cap_bound h (Nat.zero_le _)
  exact Nat.mod_eq_of_lt (show O c < W by omega)

theorem stride_eq {c : Cfg} (h : CfgOk c) : (c.stacksz + G c) % W = c.stacksz + G c := by
  have := cap_bound h (n := 1) h.max0; exact Nat.mod_eq_of_lt (by omega)

theorem alloc_eq {c : Cfg} (h : CfgOk c) {n : Nat} (hn : n ≤ c.maxcap) : allocOf c.stacksz c.pagesz n c.gapsz = O c + (c.stacksz + G c) * n := by
  unfold allocOf
  rw [off0_eq h, show gapOf c.gapsz c.pagesz = G c from rfl, stride_eq h]
  exact Nat.mod_eq_of_lt (cap_bound h hn)

/-- a well-formed group -/
structure GOk (c : Cfg) (g : Group) : Prop where
  st : g.stacksz = c.stacksz
  gap : g.gapsz = G c
  page : g.pagesz = c.pagesz
  s0 : g.stack0 = g.base + O c
  al : g.allocsz = O c + (c.stacksz + G c) * g.cap
  w : g.base + g.allocsz ≤ W
  b0 : 0 < g.base
  pc : g.pos ≤ g.cap
  cp : 0 < g.cap
  cm : g.cap ≤ c.maxcap

/-- where stack number `i` of the group at `b` is -/
def at' (c : Cfg) (b i : Nat) : Nat := b + O c + (c.stacksz + G c) * i

theorem slot_eq {c : Cfg} (hc : CfgOk c) {g : Group} (h : GOk c g) {i : Nat} (hi : i < g.cap) : slot g i = at' c g.base i := by
  unfold slot
  rw [h.s0, h.st, h.gap, stride_eq hc]
  have h1 : (c.stacksz + G c) * (i + 1) ≤ (c.stacksz + G c) * g.cap := Nat.mul_le_mul_left _ hi
  rw [Nat.mul_succ] at h1
  have := h.w; rw [h.al] at this
  have := hc.st; have := hc.page
  exact Nat.mod_eq_of_lt (by omega)

/-- the stacks of a group that were handed out at some time -/
def slots (c : Cfg) (g : Group) : List (Nat × Nat) := (List.range g.pos).map (fun i => (at' c g.base i, g.base))

/-- at least a gap between them -/
def Apart (c : Cfg) (x y : Nat × Nat) : Prop := x.1 + c.stacksz + G c ≤ y.1 ∨ y.1 + c.stacksz + G c ≤ x.1

theorem Apart.symm {c : Cfg} {x y : Nat × Nat} (h : Apart c x y) : Apart c y x := Or.symm h

theorem mem_slots {c : Cfg} {g : Group} {x : Nat × Nat} : x ∈ slots c g ↔ ∃ i < g.pos, x = (at' c g.base i, g.base) := by
  simp only [slots, List.mem_map, List.mem_range]
  exact ⟨fun ⟨i, h, e⟩ => ⟨i, h, e.symm⟩, fun ⟨i, h, e⟩ => ⟨i, h, e.symm⟩⟩

theorem in_group {c : Cfg} {g : Group} (h : GOk c g) {i : Nat} (hi : i < g.cap) : at' c g.base i + c.stacksz + G c ≤ g.base + g.allocsz := by
  rw [h.al]
  have h1 : (c.stacksz + G c) * (i + 1) ≤ (c.stacksz + G c) * g.cap := Nat.mul_le_mul_left _ hi
  rw [Nat.mul_succ] at h1
  unfold at'; omega

theorem slots_apart {c : Cfg} {g : Group} : (slots c g).Pairwise (Apart c) := by
  unfold slots
  rw [List.pairwise_map]
  refine List.Pairwise.imp ?_ List.pairwise_lt_range
  intro a b hab
  left
  have h1 : (c.stacksz + G c) * (a + 1) ≤ (c.stacksz + G c) * b := Nat.mul_le_mul_left _ hab
  rw [Nat.mul_succ] at h1
  simp only; unfold at'; omega

/-- regions of groups do not overlap -/
def GDisj (g h : Group) : Prop := g.base + g.allocsz ≤ h.base ∨ h.base + h.allocsz ≤ g.base

structure Inv (s : S) : Prop where
  nm : s.cfg.onlymalloc = false
  flt : s.fault = false
  gw : ∀ g ∈ s.groups, GOk s.cfg g
  gd : s.groups.Pairwise GDisj
  pm : (s.held ++ (s.free ++ s.lost)).Perm (s.groups.flatMap (slots s.cfg))
  us : ∀ g ∈ s.groups, g.use = s.held.countP (fun x => x.2 == g.base)
  z : ∀ g ∈ s.groups, g.use = 0 → g.pos = 0
  fl : s.cfg.nofree = true → s.free = []
  ls : s.cfg.nofree = false → s.lost = []

theorem all_apart {c : Cfg} : ∀ {gs : List Group}, (∀ g ∈ gs, GOk c g) → gs.Pairwise GDisj → (gs.flatMap (slots c)).Pairwise (Apart c)
  | gs, hw, hd => by
    rw [List.pairwise_flatMap]
    refine ⟨fun g _ => slots_apart, ?_⟩
    refine List.Pairwise.imp_of_mem ?_ hd
    intro g h hg hh hgh x hx y hy
    obtain ⟨i, hi, rfl⟩ := mem_slots.mp hx
    obtain ⟨j, hj, rfl⟩ := mem_slots.mp hy
    have h1 := in_group (hw g hg) (i := i) (by have := (hw g hg).pc; omega)
    have h2 := in_group (hw h hh) (i := j) (by have := (hw h hh).pc; omega)
    rcases hgh with e | e
    · left; simp only at *; unfold at' at *; omega
    · right; simp only at *; unfold at' at *; omega

theorem Inv.apart {s : S} (h : Inv s) : (s.held ++ (s.free ++ s.lost)).Pairwise (Apart s.cfg) :=
  (h.pm.pairwise_iff (fun h => Apart.symm h)).mpr (all_apart h.gw h.gd)

theorem Inv.mem {s : S} (h : Inv s) {x : Nat × Nat} (hx : x ∈ s.held ∨ x ∈ s.free ∨ x ∈ s.lost) : ∃ g ∈ s.groups, ∃ i < g.pos, x = (at' s.cfg g.base i, g.base) := by
  have : x ∈ s.groups.flatMap (slots s.cfg) := by
    rw [← h.pm.mem_iff]; simpa using hx
  rw [List.mem_flatMap] at this
  obtain ⟨g, hg, hx⟩ := this
  exact ⟨g, hg, mem_slots.mp hx⟩

theorem disj_base {c : Cfg} (hc : CfgOk c) {g h : Group} (hg : GOk c g) (hh : GOk c h) (hd : GDisj g h) : g.base ≠ h.base := by
  have := hg.al; have := hh.al; have := hc.gap; have := hc.page; have := hg.b0; have := hh.b0
  rcases hd with e | e <;> (unfold O at *; omega)

theorem bases_nodup {c : Cfg} (hc : CfgOk c) {gs : List Group} (hw : ∀ g ∈ gs, GOk c g) (hd : gs.Pairwise GDisj) : gs.Pairwise (fun g h => g.base ≠ h.base) :=
  List.Pairwise.imp_of_mem (fun hg hh h => disj_base hc (hw _ hg) (hw _ hh) h) hd

theorem base_inj {c : Cfg} (hc : CfgOk c) {gs : List Group} (hw : ∀ g ∈ gs, GOk c g) (hd : gs.Pairwise GDisj) {g h : Group} (hg : g ∈ gs) (hh : h ∈ gs) (e : g.base = h.base) : g = h := by
  have hp := bases_nodup hc hw hd
  clear hd hw
  induction gs with
  | nil => cases hg
  | cons a l ih =>
    rw [List.pairwise_cons] at hp
    rcases List.mem_cons.mp hg with h1 | hg' <;> rcases List.mem_cons.mp hh with h2 | hh'
    · rw [h1, h2]
    · subst h1; exact absurd e (hp.1 _ hh')
    · subst h2; exact absurd e.symm (hp.1 _ hg')
    · exact ih hg' hh' hp.2

theorem mem_setGroup {gs : List Group} {b : Nat} {f : Group → Group} {g : Group} : g ∈ setGroup gs b f ↔ ∃ h ∈ gs, g = if h.base = b then f h else h := by
  simp only [setGroup, List.mem_map]
  exact ⟨fun ⟨a, h, e⟩ => ⟨a, h, e.symm⟩, fun ⟨a, h, e⟩ => ⟨a, h, e.symm⟩⟩

theorem setGroup_disj {gs : List Group} {b : Nat} {f : Group → Group} (hb : ∀ g, (f g).base = g.base) (ha : ∀ g, (f g).allocsz = g.allocsz) (h : gs.Pairwise GDisj) : (setGroup gs b f).Pairwise GDisj := by
  unfold setGroup
  rw [List.pairwise_map]
  refine List.Pairwise.imp ?_ h
  intro x y hxy
  unfold GDisj at *
  repeat' split
  all_goals simpa [hb, ha] using hxy

theorem slots_congr {c : Cfg} {g h : Group} (hb : g.base = h.base) (hp : g.pos = h.pos) : slots c g = slots c h := by
  unfold slots; rw [hb, hp]

theorem setGroup_slots {c : Cfg} {gs : List Group} {b : Nat} {f : Group → Group} (hb : ∀ g, (f g).base = g.base) (hp : ∀ g, (f g).pos = g.pos) :
    (setGroup gs b f).flatMap (slots c) = gs.flatMap (slots c) := by
  unfold setGroup
  rw [List.flatMap_map]
  congr 1
  funext g
  split
  · exact slots_congr (hb g) (hp g)
  · rfl

/-- reachable states only change in these fields -/
theorem cfg_get (s : S) (m : Option Nat) (p1 p2 : Bool) : (get s m p1 p2).1.cfg = s.cfg := by
  unfold get take
  (repeat' split) <;> try rfl
  all_goals (dsimp only; (repeat' split) <;> rfl)

theorem cfg_put (s : S) (x : Nat × Nat) : (put s x).cfg = s.cfg := by
  unfold put release
  (repeat' split) <;> try rfl
  all_goals (dsimp only; (repeat' split) <;> rfl)

theorem cfg_reach {o : Opts} {p : Nat} {s : S} (r : Reach o p s) : s.cfg = mgrInit o p := by
  induction r with
  | init => rfl
  | step r h ih => cases h with
    | get m p1 p2 h => rw [cfg_get]; exact ih
    | put x h => rw [cfg_put]; exact ih

/-! ## Invariant: handing out -/

theorem getLast_dropLast {α : Type} {l : List α} {x : α} (h : l.getLast? = some x) : l = l.dropLast ++ [x] := by
  rcases List.eq_nil_or_concat l with rfl | ⟨q, a, rfl⟩
  · cases h
  · simp at h; subst h; simp

theorem base_any {s : S} (h : Inv s) {x : Nat × Nat} (hx : x ∈ s.held ∨ x ∈ s.free ∨ x ∈ s.lost) : s.groups.any (fun g => g.base == x.2) = true := by
  obtain ⟨g, hg, i, hi, rfl⟩ := h.mem hx
  exact List.any_eq_true.mpr ⟨g, hg, by simp⟩

theorem inv_reuse {s : S} (hc : CfgOk s.cfg) (h : Inv s) {x : Nat × Nat} (hx : s.free.getLast? = some x) :
    Inv { s with free := s.free.dropLast, groups := setGroup s.groups x.2 (fun g => { g with use := g.use + 1 }), held := x :: s.held, fault := s.fault || !s.groups.any (fun g => g.base == x.2) } := by
  have e := getLast_dropLast hx
  have hm : x ∈ s.free := by rw [e]; simp
  have hf : s.cfg.nofree = false := by
    cases hn : s.cfg.nofree with
    | false => rfl
    | true => rw [h.fl hn] at hm; cases hm
  constructor
  · exact h.nm
  · simp [h.flt, base_any h (.inr (.inl hm))]
  · intro g hg
    obtain ⟨k, hk, rfl⟩ := mem_setGroup.mp hg
    have := h.gw k hk
    split
    · exact ⟨this.st, this.gap, this.page, this.s0, this.al, this.w, this.b0, this.pc, this.cp, this.cm⟩
    · exact this
  · refine setGroup_disj ?_ ?_ h.gd <;> intro g <;> rfl
  · simp only
    rw [setGroup_slots (by intro _; rfl) (by intro _; rfl)]
    refine List.Perm.trans ?_ h.pm
    have e' : s.held ++ (s.free ++ s.lost) = s.held ++ (s.free.dropLast ++ ([x] ++ s.lost)) := by rw [← List.append_assoc s.free.dropLast, ← e]
    rw [e', ← List.append_assoc s.held]
    have : (s.held ++ s.free.dropLast ++ ([x] ++ s.lost)).Perm (x :: (s.held ++ s.free.dropLast ++ s.lost)) := List.perm_middle
    refine List.Perm.trans ?_ this.symm
    simp
  · intro g hg
    obtain ⟨k, hk, rfl⟩ := mem_setGroup.mp hg
    simp only [List.countP_cons]
    have := h.us k hk
    by_cases hb : k.base = x.2
    · rw [if_pos hb]; simp [hb, this]
    · rw [if_neg hb]; simp [show ¬ (_ : Nat) = k.base from fun e => hb (Eq.symm e), this]
  · intro g hg
    obtain ⟨k, hk, rfl⟩ := mem_setGroup.mp hg
    split
    · intro hz; simp at hz
    · exact h.z k hk
  · intro hn; rw [hf] at hn; cases hn
  · exact h.ls

theorem take_cases (s : S) (g : Group) (p1 p2 : Bool) :
    (∃ l, (take s g p1 p2).1 = { s with log := l ++ s.log } ∧ (take s g p1 p2).2 = -1) ∨
    (∃ l, (take s g p1 p2).1 = { s with groups := setGroup s.groups g.base (fun g => { g with pos := g.pos + 1, use := g.use + 1 }), held := (slot g g.pos, g.base) :: s.held, log := l ++ s.log } ∧ (take s g p1 p2).2 = 0) := by
  unfold take
  dsimp only
  by_cases hg : g.guards = true
  · rw [if_pos hg]
    by_cases h1 : slot g g.pos = g.stack0 ∧ p1 = false
    · rw [if_pos h1]; exact .inl ⟨[], rfl, rfl⟩
    · rw [if_neg h1]
      by_cases h2 : p2 = false
      · rw [if_pos h2]; exact .inl ⟨_, rfl, rfl⟩
      · rw [if_neg h2]; exact .inr ⟨_ :: _, rfl, rfl⟩
  · rw [if_neg hg]; exact .inr ⟨[], rfl, rfl⟩

theorem Inv.log {s : S} (h : Inv s) (l : List Ev) : Inv { s with log := l } := ⟨h.nm, h.flt, h.gw, h.gd, h.pm, h.us, h.z, h.fl, h.ls⟩

theorem flatMap_set {c : Cfg} (hc : CfgOk c) {gs : List Group} (hw : ∀ g ∈ gs, GOk c g) (hd : gs.Pairwise GDisj) {g : Group} (hg : g ∈ gs) {f : Group → Group}
    (hb : (f g).base = g.base) (hp : (f g).pos = g.pos + 1) :
    ((at' c g.base g.pos, g.base) :: gs.flatMap (slots c)).Perm ((setGroup gs g.base f).flatMap (slots c)) := by
  have key : ∀ {gs : List Group}, gs.Pairwise (fun g h => g.base ≠ h.base) → g ∈ gs →
      ((at' c g.base g.pos, g.base) :: gs.flatMap (slots c)).Perm ((setGroup gs g.base f).flatMap (slots c)) := by
    intro gs hp' hg'
    induction gs with
    | nil => cases hg'
    | cons a l ih =>
      rw [List.pairwise_cons] at hp'
      simp only [setGroup, List.map_cons, List.flatMap_cons]
      rcases List.mem_cons.mp hg' with rfl | hm
      · rw [if_pos rfl]
        have hl : l.map (fun k => if k.base = g.base then f k else k) = l := by
          conv => rhs; rw [← List.map_id l]
          refine List.map_congr_left (fun k hk => ?_)
          rw [if_neg (fun e => hp'.1 k hk e.symm)]; rfl
        rw [hl]
        have hs : slots c (f g) = slots c g ++ [(at' c g.base g.pos, g.base)] := by
          unfold slots; rw [hb, hp, List.range_succ, List.map_append]; rfl
        rw [hs, ← List.cons_append]
        refine List.Perm.append_right _ ?_
        exact (List.perm_append_singleton _ _).symm
      · rw [if_neg (hp'.1 g hm)]
        refine List.Perm.trans (List.perm_middle (l₁ := slots c a)).symm ?_
        exact List.Perm.append_left _ (ih hp'.2 hm)
  exact key (bases_nodup hc hw hd) hg

theorem inv_take {s : S} (hc : CfgOk s.cfg) (h : Inv s) {g : Group} (hg : g ∈ s.groups) (hp : g.pos < g.cap) (p1 p2 : Bool) : Inv (take s g p1 p2).1 := by
  rcases take_cases s g p1 p2 with ⟨l, e, _⟩ | ⟨l, e, _⟩
  · rw [e]; exact h.log _
  · rw [e]
    refine Inv.log (s := { s with groups := setGroup s.groups g.base (fun g => { g with pos := g.pos + 1, use := g.use + 1 }), held := (slot g g.pos, g.base) :: s.held }) ?_ _
    constructor
    · exact h.nm
    · exact h.flt
    · intro k' hk'
      obtain ⟨k, hk, rfl⟩ := mem_setGroup.mp hk'
      have := h.gw k hk
      split
      · rename_i hb
        have hkg : k = g := base_inj hc h.gw h.gd hk hg hb
        subst hkg
        exact ⟨this.st, this.gap, this.page, this.s0, this.al, this.w, this.b0, hp, this.cp, this.cm⟩
      · exact this
    · refine setGroup_disj ?_ ?_ h.gd <;> intro g <;> rfl
    · simp only
      rw [slot_eq hc (h.gw g hg) hp]
      exact ((h.pm.cons _)).trans (flatMap_set hc h.gw h.gd hg rfl rfl)
    · intro k' hk'
      obtain ⟨k, hk, rfl⟩ := mem_setGroup.mp hk'
      simp only [List.countP_cons]
      have := h.us k hk
      by_cases hb : k.base = g.base
      · rw [if_pos hb]; simp [hb, this]
      · rw [if_neg hb]; simp [show ¬ (_ : Nat) = k.base from fun e => hb (Eq.symm e), this]
    · intro k' hk'
      obtain ⟨k, hk, rfl⟩ := mem_setGroup.mp hk'
      split
      · intro hz; simp at hz
      · exact h.z k hk
    · exact h.fl
    · exact h.ls

theorem openGroup_mem {gs : List Group} {g : Group} (h : openGroup gs = some g) : g ∈ gs ∧ g.pos ≠ g.cap := by
  unfold openGroup at h
  split at h
  · cases h
  · rename_i k hk
    split at h
    · cases h
    · rename_i hn; cases h; exact ⟨List.mem_of_getLast? hk, hn⟩

theorem newCap_ok {s : S} (hc : CfgOk s.cfg) (h : Inv s) : 0 < newCap s.cfg s.groups ∧ newCap s.cfg s.groups ≤ s.cfg.maxcap := by
  unfold newCap
  dsimp only
  refine ⟨?_, Nat.min_le_right _ _⟩
  cases hl : s.groups.getLast? with
  | none => exact Nat.lt_min.mpr ⟨by simpa using hc.def0, hc.max0⟩
  | some g =>
    have hg := h.gw g (List.mem_of_getLast? hl)
    simp only [Option.map_some, Option.getD_some]
    rw [if_pos (by have := hg.cp; omega)]
    have h1 := cap_bound hc hg.cm
    have h2 : 32 * g.cap ≤ (s.cfg.stacksz + G s.cfg) * g.cap := Nat.mul_le_mul_right _ (by have := hc.page; have := hc.st; omega)
    rw [Nat.mod_eq_of_lt (by omega)]
    have := hg.cp; have := hc.max0
    exact Nat.lt_min.mpr ⟨by omega, by omega⟩

theorem inv_newGroup {s : S} (hc : CfgOk s.cfg) (h : Inv s) {a : Nat} (hf : Fresh s (some a)) (l : List Ev) :
    Inv { s with groups := s.groups ++ [groupNew a s.cfg.stacksz s.cfg.pagesz (newCap s.cfg s.groups) s.cfg.gapsz s.cfg.useguards], log := l } := by
  obtain ⟨f1, f2, f3, f4, f5⟩ := hf
  obtain ⟨n1, n2⟩ := newCap_ok hc h
  refine Inv.log (s := { s with groups := s.groups ++ [groupNew a s.cfg.stacksz s.cfg.pagesz (newCap s.cfg s.groups) s.cfg.gapsz s.cfg.useguards] }) ?_ l
  have hal := alloc_eq hc n2
  have hw : GOk s.cfg (groupNew a s.cfg.stacksz s.cfg.pagesz (newCap s.cfg s.groups) s.cfg.gapsz s.cfg.useguards) := by
    refine ⟨rfl, rfl, rfl, ?_, hal, f2, f1, Nat.zero_le _, n1, n2⟩
    simp only [groupNew]
    rw [off0_eq hc]
    have : (s.cfg.stacksz + G s.cfg) * 1 ≤ (s.cfg.stacksz + G s.cfg) * newCap s.cfg s.groups := Nat.mul_le_mul_left _ n1
    have := hc.st; have := hc.page
    rw [hal] at f2
    exact Nat.mod_eq_of_lt (by omega)
  constructor
  · exact h.nm
  · exact h.flt
  · intro g hg
    rcases List.mem_append.mp hg with hg | hg
    · exact h.gw g hg
    · rw [List.mem_singleton] at hg; subst hg; exact hw
  · simp only
    rw [List.pairwise_append]
    refine ⟨h.gd, List.pairwise_singleton _ _, ?_⟩
    intro g hg k hk
    rw [List.mem_singleton] at hk; subst hk
    exact (f4 g hg).symm
  · simp only
    rw [List.flatMap_append]
    have : [groupNew a s.cfg.stacksz s.cfg.pagesz (newCap s.cfg s.groups) s.cfg.gapsz s.cfg.useguards].flatMap (slots s.cfg) = [] := rfl
    rw [this, List.append_nil]; exact h.pm
  · intro g hg
    rcases List.mem_append.mp hg with hg | hg
    · exact h.us g hg
    · rw [List.mem_singleton] at hg; subst hg
      symm
      simp only [groupNew]
      rw [List.countP_eq_zero]
      intro x hx hb
      obtain ⟨k, hk, i, hi, rfl⟩ := h.mem (.inl hx)
      have hb : k.base = a := by simpa using hb
      have := (h.gw k hk).al; have := hc.page; have := hc.gap
      rcases f4 k hk with e | e
      · rw [hal] at e; unfold O at *; omega
      · unfold O at *; omega
  · intro g hg
    rcases List.mem_append.mp hg with hg | hg
    · exact h.z g hg
    · rw [List.mem_singleton] at hg; subst hg; intro _; rfl
  · exact h.fl
  · exact h.ls

theorem inv_get {s : S} (hc : CfgOk s.cfg) (h : Inv s) {m : Option Nat} (hf : Fresh s m) (p1 p2 : Bool) : Inv (get s m p1 p2).1 := by
  unfold get
  rw [if_neg (by simp [h.nm])]
  split
  · rename_i x hx
    split at hx
    · cases hx
    · exact inv_reuse hc h hx
  · split
    · rename_i g hg
      obtain ⟨h1, h2⟩ := openGroup_mem hg
      exact inv_take hc h h1 (by have := (h.gw g h1).pc; omega) p1 p2
    · cases m with
      | none => exact h
      | some a =>
        dsimp only
        refine inv_take (s := { s with groups := s.groups ++ [_], log := _ :: s.log }) hc (inv_newGroup hc h hf _) (by simp) ?_ p1 p2
        exact (newCap_ok hc h).1

/-! ## Invariant: giving back -/

theorem unlinkAll_spec : ∀ (q : List Nat) (f : List (Nat × Nat)), q.Nodup → (f.map (·.1)).Nodup → (∀ a ∈ q, ∃ x ∈ f, x.1 = a) → unlinkAll f q = some (f.filter (fun x => !q.contains x.1))
  | [], f, _, _, _ => by simp only [unlinkAll]; exact congrArg some (List.filter_eq_self.mpr (fun _ _ => by simp)).symm
  | a :: q, f, hq, hf, h => by
    rw [List.nodup_cons] at hq
    obtain ⟨x, hx, rfl⟩ := h a (by simp)
    unfold unlinkAll
    rw [if_pos (List.any_eq_true.mpr ⟨x, hx, by simp⟩)]
    have he : f.eraseP (fun y => y.1 == x.1) = f.filter (fun y => !(y.1 == x.1)) := by
      clear h hq
      induction f with
      | nil => rfl
      | cons b l ih =>
        simp only [List.map_cons, List.nodup_cons] at hf
        by_cases hb : b.1 = x.1
        · rw [List.eraseP_cons_of_pos (by simp [hb]), List.filter_cons_of_neg (by simp [hb])]
          symm
          rw [List.filter_eq_self]
          intro y hy
          have : y.1 ≠ x.1 := fun e => hf.1 (by rw [hb, ← e]; exact List.mem_map_of_mem hy)
          simp [this]
        · rw [List.eraseP_cons_of_neg (by simp [hb]), List.filter_cons_of_pos (by simp [hb])]
          rcases List.mem_cons.mp hx with rfl | hx
          · exact absurd rfl hb
          · rw [ih hf.2 hx]
    rw [he]
    rw [unlinkAll_spec q _ hq.2]
    · rw [List.filter_filter]
      congr 1
      refine List.filter_congr (fun y _ => ?_)
      simp only [List.contains_cons]
      cases (y.1 == x.1) <;> simp
    · exact hf.sublist (List.filter_sublist.map _)
    · intro b hb
      obtain ⟨y, hy, rfl⟩ := h b (by simp [hb])
      refine ⟨y, List.mem_filter.mpr ⟨hy, ?_⟩, rfl⟩
      have : y.1 ≠ x.1 := fun e => hq.1 (e ▸ hb)
      simp [this]

theorem fsts_nodup {s : S} (hc : CfgOk s.cfg) (h : Inv s) : ((s.held ++ (s.free ++ s.lost)).map (·.1)).Nodup := by
  unfold List.Nodup
  rw [List.pairwise_map]
  refine List.Pairwise.imp ?_ h.apart
  intro x y hxy e
  have := hc.st; have := hc.page
  rcases hxy with k | k <;> omega

theorem flatMap_filter {c : Cfg} {b : Nat} (gs : List Group) :
    (gs.flatMap (slots c)).filter (fun x => x.2 != b) = (gs.filter (fun g => g.base != b)).flatMap (slots c) := by
  induction gs with
  | nil => rfl
  | cons g l ih =>
    rw [List.flatMap_cons, List.filter_append, ih]
    by_cases hb : g.base = b
    · rw [List.filter_cons_of_neg (by simp [hb])]
      have : (slots c g).filter (fun x => x.2 != b) = [] := by
        rw [List.filter_eq_nil_iff]
        intro x hx
        obtain ⟨i, _, rfl⟩ := mem_slots.mp hx
        simp [hb]
      rw [this]; rfl
    · rw [List.filter_cons_of_pos (by simp [hb]), List.flatMap_cons]
      congr 1
      rw [List.filter_eq_self]
      intro x hx
      obtain ⟨i, _, rfl⟩ := mem_slots.mp hx
      simp [hb]

/-- the state after a stack was given back, before the group is considered -/
def given (s : S) (g : Group) (x : Nat × Nat) : S :=
  { s with
    groups := setGroup s.groups g.base (fun g => { g with use := g.use - 1 })
    held := s.held.erase x
    free := if s.cfg.nofree then s.free else s.free ++ [x]
    lost := if s.cfg.nofree then x :: s.lost else s.lost
    log := remaps s.cfg g x.1 ++ s.log
    fault := s.fault || g.use == 0 }

/-- as `Inv`, without the clause that unused groups are new -/
structure Inv0 (s : S) : Prop where
  nm : s.cfg.onlymalloc = false
  flt : s.fault = false
  gw : ∀ g ∈ s.groups, GOk s.cfg g
  gd : s.groups.Pairwise GDisj
  pm : (s.held ++ (s.free ++ s.lost)).Perm (s.groups.flatMap (slots s.cfg))
  us : ∀ g ∈ s.groups, g.use = s.held.countP (fun x => x.2 == g.base)
  fl : s.cfg.nofree = true → s.free = []
  ls : s.cfg.nofree = false → s.lost = []

theorem put_eq {s : S} {x : Nat × Nat} {g : Group} (hm : s.cfg.onlymalloc = false) (h : s.groups.find? (fun g => g.base == x.2) = some g) :
    put s x = if g.use - 1 = 0 then release (given s g x) { g with use := g.use - 1 } else given s g x := by
  unfold put
  rw [if_neg (by simp [hm])]
  simp only [h]
  rfl

theorem find_base {s : S} (h : Inv s) {x : Nat × Nat} (hx : x ∈ s.held) : ∃ g ∈ s.groups, s.groups.find? (fun g => g.base == x.2) = some g ∧ g.base = x.2 := by
  cases e : s.groups.find? (fun g => g.base == x.2) with
  | none =>
    have := base_any h (.inl hx)
    rw [List.find?_eq_none] at e
    obtain ⟨g, hg, hb⟩ := List.any_eq_true.mp this
    exact absurd hb (e g hg)
  | some g => exact ⟨g, List.mem_of_find?_eq_some e, rfl, by simpa using List.find?_some e⟩

theorem use_pos {s : S} (h : Inv s) {x : Nat × Nat} (hx : x ∈ s.held) {g : Group} (hg : g ∈ s.groups) (hb : g.base = x.2) : 0 < g.use := by
  rw [h.us g hg]
  exact List.countP_pos_iff.mpr ⟨x, hx, by simp [hb]⟩

theorem inv0_given {s : S} (h : Inv s) {x : Nat × Nat} (hx : x ∈ s.held) {g : Group} (hg : g ∈ s.groups) (hb : g.base = x.2) : Inv0 (given s g x) := by
  have hu := use_pos h hx hg hb
  constructor
  · exact h.nm
  · simp [given, h.flt]; omega
  · intro k' hk'
    obtain ⟨k, hk, rfl⟩ := mem_setGroup.mp hk'
    have := h.gw k hk
    split
    · exact ⟨this.st, this.gap, this.page, this.s0, this.al, this.w, this.b0, this.pc, this.cp, this.cm⟩
    · exact this
  · refine setGroup_disj ?_ ?_ h.gd <;> intro g <;> rfl
  · simp only [given]
    rw [setGroup_slots (by intro _; rfl) (by intro _; rfl)]
    refine List.Perm.trans ?_ h.pm
    have hp := List.perm_cons_erase hx
    refine List.Perm.trans ?_ (List.Perm.append_right _ hp.symm)
    rw [List.cons_append]
    by_cases hn : s.cfg.nofree = true
    · rw [if_pos hn, if_pos hn]
      rw [← List.append_assoc]
      refine List.Perm.trans List.perm_middle ?_
      rw [List.append_assoc]
    · rw [if_neg hn, if_neg hn]
      have : s.held.erase x ++ (s.free ++ [x] ++ s.lost) = (s.held.erase x ++ s.free) ++ x :: s.lost := by simp
      rw [this]
      refine List.Perm.trans List.perm_middle ?_
      rw [List.append_assoc]
  · intro k' hk'
    obtain ⟨k, hk, rfl⟩ := mem_setGroup.mp hk'
    simp only [given]
    have hu := h.us k hk
    have hce : s.held.countP (fun y => y.2 == k.base) = (s.held.erase x).countP (fun y => y.2 == k.base) + if x.2 == k.base then 1 else 0 := by
      rw [(List.perm_cons_erase hx).countP_eq, List.countP_cons]
    by_cases hkb : k.base = g.base
    · rw [if_pos hkb]; simp only
      rw [hu, hce, if_pos (by simp [hkb, hb])]; rfl
    · rw [if_neg hkb, hu, hce, if_neg (by rw [← hb]; simp [show ¬ g.base = k.base from fun e => hkb (Eq.symm e)])]; rfl
  · intro hn; simp only [given]; rw [if_pos (show s.cfg.nofree = true from hn)]; exact h.fl hn
  · intro hn
    have hn' : s.cfg.nofree = false := hn
    simp only [given]; rw [if_neg (by simp [hn'])]; exact h.ls hn'

theorem apart0 {s : S} (h : Inv0 s) : (s.held ++ (s.free ++ s.lost)).Pairwise (Apart s.cfg) :=
  (h.pm.pairwise_iff (fun h => Apart.symm h)).mpr (all_apart h.gw h.gd)

theorem slot_fun (g : Group) (n : Nat) : slot { g with use := n } = slot g := rfl

theorem release_eq {s : S} (hc : CfgOk s.cfg) (h : Inv0 s) {g : Group} (hg : g ∈ s.groups) (hz : g.use = 0) :
    release s g = { s with groups := s.groups.filter (fun h => h.base != g.base), lost := s.lost.filter (fun x => x.2 != g.base), free := s.free.filter (fun x => x.2 != g.base), log := .unmap g.base g.allocsz :: s.log } := by
  have hnh : ∀ x ∈ s.held, x.2 ≠ g.base := by
    have := h.us g hg; rw [hz] at this
    have := List.countP_eq_zero.mp this.symm
    intro x hx e; exact this x hx (by simp [e])
  unfold release
  dsimp only
  by_cases hn : s.cfg.nofree = true
  · rw [if_pos hn, h.fl hn]; simp
  · have hn : s.cfg.nofree = false := by simpa using hn
    rw [if_neg (by simp [hn])]
    have hl := h.ls hn
    have hpm := h.pm
    have hap := apart0 h
    rw [hl, List.append_nil] at hpm hap
    have hwg := h.gw g hg
    have hq : ∀ a ∈ (List.range g.pos).map (slot g), ∃ x ∈ s.free, x.1 = a := by
      intro a ha
      obtain ⟨i, hi, rfl⟩ := List.mem_map.mp ha
      have hi := List.mem_range.mp hi
      have hic : i < g.cap := by have := hwg.pc; omega
      have : (at' s.cfg g.base i, g.base) ∈ s.groups.flatMap (slots s.cfg) := List.mem_flatMap.mpr ⟨g, hg, mem_slots.mpr ⟨i, hi, rfl⟩⟩
      rw [← hpm.mem_iff, List.mem_append] at this
      rcases this with hh | hh
      · exact absurd rfl (hnh _ hh)
      · exact ⟨_, hh, (slot_eq hc hwg hic).symm⟩
    have hst := hc.st; have hpg := hc.page
    rw [unlinkAll_spec]
    · simp only
      congr 1
      · refine List.filter_congr (fun x hx => ?_)
        have hxs : x ∈ s.groups.flatMap (slots s.cfg) := by rw [← hpm.mem_iff]; simp [hx]
        obtain ⟨k, hk, hxk⟩ := List.mem_flatMap.mp hxs
        obtain ⟨i, hi, rfl⟩ := mem_slots.mp hxk
        by_cases hb : k.base = g.base
        · have hkg : k = g := base_inj hc h.gw h.gd hk hg hb
          subst hkg
          have : ((List.range k.pos).map (slot k)).contains (at' s.cfg k.base i) = true := by
            rw [List.contains_iff_mem, List.mem_map]
            exact ⟨i, by simpa using hi, slot_eq hc hwg (by have := hwg.pc; omega)⟩
          simp only [this]; simp
        · have : ((List.range g.pos).map (slot g)).contains (at' s.cfg k.base i) = false := by
            rw [Bool.eq_false_iff]; intro hcon
            rw [List.contains_iff_mem, List.mem_map] at hcon
            obtain ⟨j, hj, e⟩ := hcon
            have hj := List.mem_range.mp hj
            have hjc : j < g.cap := by have := hwg.pc; omega
            rw [slot_eq hc hwg hjc] at e
            have h1 := in_group hwg hjc
            have h2 := in_group (h.gw k hk) (i := i) (by have := (h.gw k hk).pc; omega)
            have hd : GDisj k g ∨ GDisj g k := by
              have hne : k ≠ g := fun e => hb (by rw [e])
              have := h.gd
              clear h1 h2 hxs hpm hap hq hnh
              generalize s.groups = gs at *
              induction gs with
              | nil => cases hk
              | cons a l ih =>
                rw [List.pairwise_cons] at this
                rcases List.mem_cons.mp hk with rfl | hk' <;> rcases List.mem_cons.mp hg with rfl | hg'
                · exact absurd rfl hne
                · exact .inl (this.1 _ hg')
                · exact .inr (this.1 _ hk')
                · exact ih hg' hk' this.2
            simp only [at'] at *
            rcases hd with (d | d) | (d | d) <;> omega
          simp only [this]; simp [hb]
    · unfold List.Nodup
      rw [List.pairwise_map]
      refine List.Pairwise.imp_of_mem ?_ List.pairwise_lt_range
      intro a b ha hb hab e
      have ha := List.mem_range.mp ha; have hb := List.mem_range.mp hb
      have := hwg.pc
      rw [slot_eq hc hwg (by omega), slot_eq hc hwg (by omega)] at e
      have h1 : (s.cfg.stacksz + G s.cfg) * (a + 1) ≤ (s.cfg.stacksz + G s.cfg) * b := Nat.mul_le_mul_left _ hab
      rw [Nat.mul_succ] at h1
      simp only [at'] at e; omega
    · unfold List.Nodup
      rw [List.pairwise_map]
      refine List.Pairwise.imp ?_ (List.pairwise_append.mp hap).2.1
      intro x y hxy e
      rcases hxy with k | k <;> omega
    · exact hq

theorem inv_put {s : S} (hc : CfgOk s.cfg) (h : Inv s) {x : Nat × Nat} (hx : x ∈ s.held) : Inv (put s x) := by
  obtain ⟨g, hg, hf, hb⟩ := find_base h hx
  rw [put_eq h.nm hf]
  have h0 := inv0_given h hx hg hb
  by_cases hz : g.use - 1 = 0
  · rw [if_pos hz]
    have hm : { g with use := g.use - 1 } ∈ (given s g x).groups := mem_setGroup.mpr ⟨g, hg, by rw [if_pos rfl]⟩
    rw [release_eq (s := given s g x) hc h0 hm hz]
    have hnh : ∀ y ∈ (given s g x).held, y.2 ≠ g.base := by
      have := h0.us _ hm; rw [hz] at this
      have := List.countP_eq_zero.mp this.symm
      intro y hy e; exact this y hy (by simp [e])
    constructor
    · exact h0.nm
    · exact h0.flt
    · intro k hk; exact h0.gw k (List.mem_filter.mp hk).1
    · exact h0.gd.sublist List.filter_sublist
    · simp only
      rw [← flatMap_filter]
      have := h0.pm.filter (fun x => x.2 != g.base)
      rw [List.filter_append, List.filter_append] at this
      have e : (given s g x).held.filter (fun x => x.2 != g.base) = (given s g x).held := by
        rw [List.filter_eq_self]; intro y hy; simpa using hnh y hy
      rw [e] at this
      exact this
    · intro k hk; exact h0.us k (List.mem_filter.mp hk).1
    · intro k hk hk0
      obtain ⟨hk, hne⟩ := List.mem_filter.mp hk
      obtain ⟨k, hkm, rfl⟩ := mem_setGroup.mp hk
      by_cases e : k.base = g.base
      · rw [if_pos e] at hne; simp [e] at hne
      · rw [if_neg e] at hk0 ⊢; exact h.z k hkm hk0
    · intro hn; simp only; rw [h0.fl hn]; rfl
    · intro hn; simp only; rw [h0.ls hn]; rfl
  · rw [if_neg hz]
    refine ⟨h0.nm, h0.flt, h0.gw, h0.gd, h0.pm, h0.us, ?_, h0.fl, h0.ls⟩
    intro k hk hk0
    obtain ⟨k, hkm, rfl⟩ := mem_setGroup.mp hk
    by_cases e : k.base = g.base
    · have hkg : k = g := base_inj hc h.gw h.gd hkm hg e
      subst hkg
      rw [if_pos rfl] at hk0
      exact absurd hk0 hz
    · rw [if_neg e] at hk0 ⊢; exact h.z k hkm hk0

theorem inv_init {o : Opts} {p : Nat} (hm : o.onlymalloc = false) : Inv (init o p) := by
  constructor
  · exact hm
  all_goals simp [init]

theorem reach_inv {o : Opts} {p : Nat} (ho : Sane o p) (hm : o.onlymalloc = false) {s : S} (r : Reach o p s) : CfgOk s.cfg ∧ Inv s := by
  refine ⟨by rw [cfg_reach r]; exact cfgOk ho, ?_⟩
  induction r with
  | init => exact inv_init hm
  | @step s s' a v r hs ih =>
    have hc : CfgOk s.cfg := by rw [cfg_reach r]; exact cfgOk ho
    cases hs with
    | get m p1 p2 hf => exact inv_get hc ih hf p1 p2
    | put x hx => exact inv_put hc ih hx

/-! ## What was asked of the system -/

/-- the regions of the groups -/
def regions (gs : List Group) : List (Nat × Nat) := gs.map (fun g => (g.base, g.allocsz))

theorem regions_set (gs : List Group) (b : Nat) (f : Group → Group) (hb : ∀ g, (f g).base = g.base) (ha : ∀ g, (f g).allocsz = g.allocsz) : regions (setGroup gs b f) = regions gs := by
  unfold regions setGroup
  rw [List.map_map]
  refine List.map_congr_left (fun g _ => ?_)
  simp only [Function.comp]
  split
  · rw [hb, ha]
  · rfl

/-- neither maps nor unmaps -/
def Quiet (l : List Ev) : Prop := ∀ e ∈ l, (∀ a n, e ≠ .map a n) ∧ ∀ a n, e ≠ .unmap a n

theorem mapped_quiet : ∀ {l k : List Ev}, Quiet l → mapped (l ++ k) = mapped k
  | [], _, _ => rfl
  | e :: l, k, h => by
    have h1 := h e (by simp)
    have ih := mapped_quiet (l := l) (k := k) (fun e' he' => h e' (by simp [he']))
    cases e <;> simp only [List.cons_append, mapped, ih]
    · exact absurd rfl (h1.1 _ _)
    · exact absurd rfl (h1.2 _ _)

theorem paired_quiet : ∀ {l k : List Ev}, Quiet l → (Paired (l ++ k) ↔ Paired k)
  | [], _, _ => Iff.rfl
  | e :: l, k, h => by
    have h1 := h e (by simp)
    have ih := paired_quiet (l := l) (k := k) (fun e' he' => h e' (by simp [he']))
    cases e <;> simp only [List.cons_append, Paired, ih]
    exact absurd rfl (h1.2 _ _)

theorem take_log (s : S) (g : Group) (p1 p2 : Bool) : ∃ l, (take s g p1 p2).1.log = l ++ s.log ∧ Quiet l ∧ (∀ e ∈ l, e = .guard (slot g g.pos - g.gapsz) g.gapsz ∧ slot g g.pos = g.stack0 ∨ e = .guard (slot g g.pos + g.stacksz) g.gapsz) := by
  unfold take
  dsimp only
  have hq : ∀ {b : Prop} [Decidable b], Quiet (if b then [Ev.guard (slot g g.pos - g.gapsz) g.gapsz] else []) := by
    intro b _; split
    · intro e he; simp at he; subst he; exact ⟨fun _ _ => by simp, fun _ _ => by simp⟩
    · intro e he; cases he
  have hm : ∀ e ∈ (if slot g g.pos = g.stack0 then [Ev.guard (slot g g.pos - g.gapsz) g.gapsz] else []), e = .guard (slot g g.pos - g.gapsz) g.gapsz ∧ slot g g.pos = g.stack0 := by
    intro e he
    split at he
    · rename_i hs; simp at he; exact ⟨he, hs⟩
    · cases he
  by_cases hg : g.guards = true
  · rw [if_pos hg]
    by_cases h1 : slot g g.pos = g.stack0 ∧ p1 = false
    · rw [if_pos h1]; exact ⟨[], rfl, (by intro _ h; cases h), (by intro _ h; cases h)⟩
    · rw [if_neg h1]
      by_cases h2 : p2 = false
      · rw [if_pos h2]; exact ⟨_, rfl, hq, fun e he => .inl (hm e he)⟩
      · rw [if_neg h2]
        refine ⟨_ :: _, rfl, ?_, ?_⟩
        · intro e he
          rcases List.mem_cons.mp he with rfl | he
          · exact ⟨fun _ _ => by simp, fun _ _ => by simp⟩
          · exact hq e he
        · intro e he
          rcases List.mem_cons.mp he with rfl | he
          · exact .inr rfl
          · exact .inl (hm e he)
  · rw [if_neg hg]; exact ⟨[], rfl, (by intro _ h; cases h), (by intro _ h; cases h)⟩

theorem take_regions (s : S) (g : Group) (p1 p2 : Bool) : regions (take s g p1 p2).1.groups = regions s.groups := by
  rcases take_cases s g p1 p2 with ⟨l, e, _⟩ | ⟨l, e, _⟩ <;> rw [e]
  exact regions_set _ _ _ (by intro _; rfl) (by intro _; rfl)

/-- the groups are the mapped regions -/
structure InvMp (s : S) : Prop where
  mp : (mapped s.log).Perm (regions s.groups)
  pr : Paired s.log

theorem mem_remaps {c : Cfg} {g : Group} {a : Nat} {e : Ev} (he : e ∈ remaps c g a) :
    e = .remap (if c.nofree then a else a + g.pagesz) (if c.nofree then g.stacksz else g.stacksz - g.pagesz) := by
  unfold remaps at he
  by_cases h : c.nopage = true
  · rw [if_pos h] at he; cases he
  · rw [if_neg h] at he
    dsimp only at he
    by_cases h2 : (if c.nofree then g.stacksz else g.stacksz - g.pagesz) > 0
    · rw [if_pos h2] at he; exact List.mem_singleton.mp he
    · rw [if_neg h2] at he; cases he

theorem remaps_quiet (c : Cfg) (g : Group) (a : Nat) : Quiet (remaps c g a) := by
  intro e he
  rw [mem_remaps he]; exact ⟨fun _ _ => by simp, fun _ _ => by simp⟩

theorem invMp_take {s : S} (h : InvMp s) (g : Group) (p1 p2 : Bool) : InvMp (take s g p1 p2).1 := by
  obtain ⟨l, e, hq, _⟩ := take_log s g p1 p2
  constructor
  · rw [e, mapped_quiet hq, take_regions]; exact h.mp
  · rw [e, paired_quiet hq]; exact h.pr

theorem filter_base {c : Cfg} (hc : CfgOk c) {gs : List Group} (hw : ∀ g ∈ gs, GOk c g) (hd : gs.Pairwise GDisj) {g : Group} (hg : g ∈ gs) :
    (regions (gs.filter (fun h => h.base != g.base))).Perm ((regions gs).erase (g.base, g.allocsz)) := by
  have hp := bases_nodup hc hw hd
  clear hd hw
  induction gs with
  | nil => cases hg
  | cons a l ih =>
    rw [List.pairwise_cons] at hp
    rcases List.mem_cons.mp hg with rfl | hg'
    · rw [List.filter_cons_of_neg (by simp)]
      have : l.filter (fun h => h.base != g.base) = l := by
        rw [List.filter_eq_self]; intro k hk; simpa using fun e => hp.1 k hk (Eq.symm e)
      rw [this]
      simp [regions]
    · have hne : a.base ≠ g.base := hp.1 g hg'
      rw [List.filter_cons_of_pos (by simp [hne])]
      simp only [regions, List.map_cons]
      rw [List.erase_cons_tail (by simp [hne])]
      exact (ih hg' hp.2).cons _

theorem invMp_put {s : S} (hc : CfgOk s.cfg) (h : Inv s) (hm : InvMp s) {x : Nat × Nat} (hx : x ∈ s.held) : InvMp (put s x) := by
  obtain ⟨g, hg, hf, hb⟩ := find_base h hx
  rw [put_eq h.nm hf]
  have h0 := inv0_given h hx hg hb
  have hreg : regions (given s g x).groups = regions s.groups := regions_set _ _ _ (by intro _; rfl) (by intro _; rfl)
  have hg0 : InvMp (given s g x) := by
    constructor
    · rw [hreg]; simp only [given]; rw [mapped_quiet (remaps_quiet _ _ _)]; exact hm.mp
    · simp only [given]; rw [paired_quiet (remaps_quiet _ _ _)]; exact hm.pr
  by_cases hz : g.use - 1 = 0
  · rw [if_pos hz]
    have hmm : { g with use := g.use - 1 } ∈ (given s g x).groups := mem_setGroup.mpr ⟨g, hg, by rw [if_pos rfl]⟩
    rw [release_eq (s := given s g x) hc h0 hmm hz]
    constructor
    · simp only [mapped]
      refine List.Perm.trans ?_ (filter_base (c := s.cfg) hc h0.gw h0.gd hmm).symm
      exact hg0.mp.erase _
    · refine ⟨?_, hg0.pr⟩
      rw [hg0.mp.mem_iff]
      exact List.mem_map.mpr ⟨_, hmm, rfl⟩
  · rw [if_neg hz]; exact hg0

theorem reach_invMp {o : Opts} {p : Nat} (ho : Sane o p) (hm : o.onlymalloc = false) {s : S} (r : Reach o p s) : InvMp s := by
  induction r with
  | init => exact ⟨List.Perm.nil, trivial⟩
  | @step s s' a v r hs ih =>
    obtain ⟨hc, hi⟩ := reach_inv ho hm r
    cases hs with
    | put x hx => exact invMp_put hc hi ih hx
    | get m p1 p2 hf =>
      unfold get
      rw [if_neg (by simp [hi.nm])]
      split
      · constructor
        · simp only; rw [regions_set _ _ _ (by intro _; rfl) (by intro _; rfl)]; exact ih.mp
        · exact ih.pr
      · split
        · exact invMp_take ih _ _ _
        · cases m with
          | none => exact ih
          | some a =>
            dsimp only
            refine invMp_take (s := { s with groups := s.groups ++ [_], log := .map _ _ :: s.log }) ⟨?_, ih.pr⟩ _ _ _
            simp only [mapped, regions, List.map_append, List.map_cons, List.map_nil]
            refine (ih.mp.cons _).trans ?_
            exact (List.perm_append_singleton _ _).symm

/-! ## Only `malloc` -/

structure InvH (s : S) : Prop where
  om : s.cfg.onlymalloc = true
  gs : s.groups = []
  hd : s.held.Pairwise (fun x y => x.1 + s.cfg.stacksz ≤ y.1 ∨ y.1 + s.cfg.stacksz ≤ x.1)
  fr : s.free = []
  flt : s.fault = false

theorem reach_invH {o : Opts} {p : Nat} (hm : o.onlymalloc = true) {s : S} (r : Reach o p s) : InvH s := by
  induction r with
  | init => exact ⟨hm, rfl, List.Pairwise.nil, rfl, rfl⟩
  | @step s s' a v r hs ih =>
    cases hs with
    | put x hx =>
      unfold put; rw [if_pos ih.om]
      exact ⟨ih.om, ih.gs, ih.hd.sublist List.erase_sublist, ih.fr, ih.flt⟩
    | get m p1 p2 hf =>
      unfold get; rw [if_pos ih.om]
      cases m with
      | none => exact ih
      | some a => exact ⟨ih.om, ih.gs, List.pairwise_cons.mpr ⟨fun y hy => hf.2.2.2.2 ih.om y hy, ih.hd⟩, ih.fr, ih.flt⟩

end Neco.Stack
