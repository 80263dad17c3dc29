import Verif.Proof.Stack

/-! # C50, C51: coroutine stacks -/

namespace Neco.Stack

/-- the stacks handed out and not given back, as regions of memory -/
def live (s : S) : List (Nat × Nat) := s.held.map (fun x => (x.1, s.cfg.stacksz))

/-- the program's memory in use for bookkeeping: the headers of the mapped groups, and the links in the free stacks -/
def bookkeeping (s : S) : List (Nat × Nat) := (mapped s.log).map (fun r => (r.1, hdrSize)) ++ s.free.map (fun x => (x.1, freedSize))

/-- **C50** a stack is as large as asked for, and whole pages -/
theorem C50_size {o : Opts} {p : Nat} (ho : Sane o p) {s : S} (r : Reach o p s) : o.stacksz ≤ s.cfg.stacksz ∧ p ≤ s.cfg.stacksz ∧ p ∣ s.cfg.stacksz := by
  rw [cfg_reach r]
  obtain ⟨⟨k, hk⟩, hp, hw⟩ := ho
  have hm : 0 < (mgrInit o p).maxcap := by simp only [mgrInit]; split <;> omega
  generalize hst : (if o.stacksz ≠ 0 then o.stacksz else 8388608) = st at *
  have h1 := Nat.le_mul_of_pos_right (st + (mgrInit o p).gapsz + 2 * p) hm
  have a3 := align_spec (size := st) hk (by omega)
  have e : (mgrInit o p).stacksz = alignSize st p := by rw [← hst]; rfl
  rw [e]
  refine ⟨?_, a3.2.2.2, a3.1⟩
  split at hst <;> omega

/-- **C50** the stacks of live coroutines do not overlap, whichever way they are allocated -/
theorem C50_disjoint {o : Opts} {p : Nat} (ho : Sane o p) {s : S} (r : Reach o p s) : (live s).Pairwise Apart2 := by
  unfold live
  rw [List.pairwise_map]
  by_cases hm : o.onlymalloc = true
  · exact (reach_invH hm r).hd
  · obtain ⟨hc, hi⟩ := reach_inv ho (by simpa using hm) r
    refine List.Pairwise.imp ?_ (List.pairwise_append.mp hi.apart).1
    intro x y h
    rcases h with h | h
    · left; simp only; omega
    · right; simp only; omega

/-- **C50** with memory from `mmap`, two live stacks are at least a page apart -/
theorem C50_gap {o : Opts} {p : Nat} (ho : Sane o p) (hm : o.onlymalloc = false) {s : S} (r : Reach o p s) :
    (live s).Pairwise (fun x y => x.1 + x.2 + p ≤ y.1 ∨ y.1 + y.2 + p ≤ x.1) := by
  unfold live
  rw [List.pairwise_map]
  obtain ⟨hc, hi⟩ := reach_inv ho hm r
  have hg := hc.gap
  have hp : s.cfg.pagesz = p := by rw [cfg_reach r]; rfl
  refine List.Pairwise.imp ?_ (List.pairwise_append.mp hi.apart).1
  intro x y h
  rcases h with h | h
  · left; simp only; omega
  · right; simp only; omega

theorem in_region {o : Opts} {p : Nat} (ho : Sane o p) (hm : o.onlymalloc = false) {s : S} (r : Reach o p s) {x : Nat × Nat} (hx : x ∈ s.held ∨ x ∈ s.free) :
    ∃ g ∈ s.groups, (g.base, g.allocsz) ∈ mapped s.log ∧ x.2 = g.base ∧ g.base + hdrSize + p ≤ x.1 ∧ x.1 + s.cfg.stacksz + p ≤ g.base + g.allocsz := by
  obtain ⟨hc, hi⟩ := reach_inv ho hm r
  have hmp := reach_invMp ho hm r
  obtain ⟨g, hg, i, hlt, rfl⟩ := hi.mem (x := x) (hx.elim .inl (fun h => .inr (.inl h)))
  have h1 := in_group (hi.gw g hg) (i := i) (by have := (hi.gw g hg).pc; omega)
  have hgp := hc.gap
  have hh := hc.hdr
  have hp : s.cfg.pagesz = p := by rw [cfg_reach r]; rfl
  refine ⟨g, hg, ?_, rfl, ?_, ?_⟩
  · rw [hmp.mp.mem_iff]; exact List.mem_map.mpr ⟨g, hg, rfl⟩
  · simp only [at', O]; omega
  · simp only; omega

/-- **C50** every live stack lies in memory the program has mapped -/
theorem C50_mapped {o : Opts} {p : Nat} (ho : Sane o p) (hm : o.onlymalloc = false) {s : S} (r : Reach o p s) {x : Nat × Nat} (hx : x ∈ live s) : ∃ m ∈ mapped s.log, Within x m := by
  obtain ⟨y, hy, rfl⟩ := List.mem_map.mp hx
  obtain ⟨g, hg, h1, h2, h3, h4⟩ := in_region ho hm r (.inl hy)
  exact ⟨_, h1, by simp only; omega, by simp only; omega⟩

theorem gdisj {s : S} (h : s.groups.Pairwise GDisj) {g k : Group} (hg : g ∈ s.groups) (hk : k ∈ s.groups) : g = k ∨ GDisj g k := by
  generalize s.groups = gs at *
  induction gs with
  | nil => cases hg
  | cons a l ih =>
    rw [List.pairwise_cons] at h
    rcases List.mem_cons.mp hg with h1 | hg' <;> rcases List.mem_cons.mp hk with h2 | hk'
    · left; rw [h1, h2]
    · right; subst h1; exact h.1 _ hk'
    · right; subst h2; exact Or.symm (h.1 _ hg')
    · exact ih h.2 hg' hk'

theorem pair_of {α : Type} {R : α → α → Prop} : ∀ {l k : List α}, (l ++ k).Pairwise R → ∀ x ∈ l, ∀ y ∈ k, R x y := fun h => (List.pairwise_append.mp h).2.2

/-- **C50** no live stack covers any bookkeeping -/
theorem C50_bookkeeping {o : Opts} {p : Nat} (ho : Sane o p) (hm : o.onlymalloc = false) {s : S} (r : Reach o p s) {x b : Nat × Nat} (hx : x ∈ live s) (hb : b ∈ bookkeeping s) : Apart2 x b := by
  obtain ⟨y, hy, rfl⟩ := List.mem_map.mp hx
  obtain ⟨hc, hi⟩ := reach_inv ho hm r
  have hmp := reach_invMp ho hm r
  obtain ⟨g, hg, h1, h2, h3, h4⟩ := in_region ho hm r (.inl hy)
  rcases List.mem_append.mp hb with hb | hb
  · obtain ⟨m, hmm, rfl⟩ := List.mem_map.mp hb
    rw [hmp.mp.mem_iff] at hmm
    obtain ⟨k, hk, rfl⟩ := List.mem_map.mp hmm
    rcases gdisj hi.gd hg hk with rfl | hd
    · right; simp only; omega
    · have := (hi.gw k hk).al; have := hc.hdr; have := (hi.gw g hg).al
      have : hdrSize ≤ k.allocsz := by rw [(hi.gw k hk).al]; unfold O; omega
      rcases hd with e | e
      · left; simp only; omega
      · right; simp only; omega
  · obtain ⟨z, hz, rfl⟩ := List.mem_map.mp hb
    have := pair_of hi.apart y hy z (by simp [hz])
    have hst := hc.st; have hpg := hc.page
    rcases this with e | e
    · left; simp only; omega
    · right; simp only [freedSize]; omega

/-- **C50** a stack handed out was not in use, and none is lost: the live stacks are the ones before, and the new one -/
theorem C50_get {s s' : S} {mem : Option Nat} {p1 p2 : Bool} {v : Int} (h : Step s (.get mem p1 p2) s' v) : (v = 0 ∧ ∃ x, s'.held = x :: s.held) ∨ (v = -1 ∧ s'.held = s.held) := by
  cases h
  unfold get
  split
  · cases mem with
    | none => exact .inr ⟨rfl, rfl⟩
    | some a => exact .inl ⟨rfl, _, rfl⟩
  · split
    · exact .inl ⟨rfl, _, rfl⟩
    · have key : ∀ t : S, t.held = s.held → ∀ g, ((take t g p1 p2).2 = 0 ∧ ∃ x, (take t g p1 p2).1.held = x :: s.held) ∨ ((take t g p1 p2).2 = -1 ∧ (take t g p1 p2).1.held = s.held) := by
        intro t ht g
        rcases take_cases t g p1 p2 with ⟨l, e1, e2⟩ | ⟨l, e1, e2⟩
        · right; exact ⟨e2, by rw [e1]; exact ht⟩
        · left; exact ⟨e2, _, by rw [e1]; simp only; rw [ht]⟩
      split
      · exact key s rfl _
      · cases mem with
        | none => exact .inr ⟨rfl, rfl⟩
        | some a => exact key { s with groups := s.groups ++ [_], log := _ :: s.log } rfl _

/-- **C50** the pages dropped when a stack is given back are pages of that stack, so they hold no live stack and no bookkeeping -/
theorem C50_drop {o : Opts} {p : Nat} (ho : Sane o p) (hm : o.onlymalloc = false) {s s' : S} (r : Reach o p s) {x : Nat × Nat} {v : Int} (hs : Step s (.put x) s' v) :
    ∃ l, s'.log = l ++ s.log ∧ ∀ a n, .remap a n ∈ l → Within (a, n) (x.1, s.cfg.stacksz) ∧ (s.cfg.nofree = false → x.1 + freedSize ≤ a) := by
  obtain ⟨hc, hi⟩ := reach_inv ho hm r
  cases hs with
  | put _ hx =>
    obtain ⟨g, hg, hf, hb⟩ := find_base hi hx
    have hgk := hi.gw g hg
    have hst := hc.st; have hpg := hc.page
    have key : ∀ a n, .remap a n ∈ remaps s.cfg g x.1 → Within (a, n) (x.1, s.cfg.stacksz) ∧ (s.cfg.nofree = false → x.1 + freedSize ≤ a) := by
      intro a n he
      have e := mem_remaps he
      injection e with e1 e2
      rw [hgk.page] at e1; rw [hgk.page, hgk.st] at e2
      unfold Within
      by_cases hn : s.cfg.nofree = true
      · rw [if_pos hn] at e1 e2
        exact ⟨⟨by simp only; omega, by simp only; omega⟩, fun h => by rw [hn] at h; cases h⟩
      · rw [if_neg hn] at e1 e2
        exact ⟨⟨by simp only; omega, by simp only; omega⟩, fun _ => by unfold freedSize; omega⟩
    rw [put_eq hi.nm hf]
    by_cases hz : g.use - 1 = 0
    · rw [if_pos hz]
      have hmm : { g with use := g.use - 1 } ∈ (given s g x).groups := mem_setGroup.mpr ⟨g, hg, by rw [if_pos rfl]⟩
      rw [release_eq (s := given s g x) hc (inv0_given hi hx hg hb) hmm hz]
      refine ⟨.unmap g.base g.allocsz :: remaps s.cfg g x.1, rfl, ?_⟩
      intro a n he
      rcases List.mem_cons.mp he with e | he
      · cases e
      · exact key a n he
    · rw [if_neg hz]
      exact ⟨remaps s.cfg g x.1, rfl, key⟩

theorem get_log {o : Opts} {p : Nat} (ho : Sane o p) (hm : o.onlymalloc = false) {s s' : S} (r : Reach o p s) {mem : Option Nat} {p1 p2 : Bool} {v : Int} (hs : Step s (.get mem p1 p2) s' v) :
    ∃ l, s'.log = l ++ s.log ∧ ∀ e ∈ l, (∃ a n, e = .map a n) ∨
      ∃ g ∈ s'.groups, ∃ i < g.cap, e = .guard (at' s.cfg g.base i + s.cfg.stacksz) (G s.cfg) ∨ (i = 0 ∧ e = .guard (at' s.cfg g.base 0 - G s.cfg) (G s.cfg)) := by
  obtain ⟨hc, hi⟩ := reach_inv ho hm r
  have key : ∀ (t : S) (g : Group), t.cfg = s.cfg → Inv t → g ∈ t.groups → g.pos < g.cap → ∃ l, (take t g p1 p2).1.log = l ++ t.log ∧ ∀ e ∈ l,
      ∃ h ∈ (take t g p1 p2).1.groups, ∃ i < h.cap, e = .guard (at' s.cfg h.base i + s.cfg.stacksz) (G s.cfg) ∨ (i = 0 ∧ e = .guard (at' s.cfg h.base 0 - G s.cfg) (G s.cfg)) := by
    intro t g ht hit hg hlt
    obtain ⟨l, e, hq, hl⟩ := take_log t g p1 p2
    refine ⟨l, e, fun e he => ?_⟩
    have hwg := hit.gw g hg
    have hsl := slot_eq (c := t.cfg) (by rw [ht]; exact hc) hwg hlt
    rw [ht] at hwg hsl
    have hmem : ∃ h ∈ (take t g p1 p2).1.groups, h.base = g.base ∧ h.cap = g.cap := by
      rcases take_cases t g p1 p2 with ⟨l, e, _⟩ | ⟨l, e, _⟩ <;> rw [e]
      · exact ⟨g, hg, rfl, rfl⟩
      · exact ⟨_, mem_setGroup.mpr ⟨g, hg, rfl⟩, by rw [if_pos rfl], by rw [if_pos rfl]⟩
    obtain ⟨h, hh, hb, hcp⟩ := hmem
    rcases hl e he with ⟨he, h0⟩ | he
    · refine ⟨h, hh, 0, by rw [hcp]; exact hwg.cp, .inr ⟨rfl, ?_⟩⟩
      rw [he, h0, hwg.gap, hwg.s0, hb]; simp [at']
    · refine ⟨h, hh, g.pos, by rw [hcp]; exact hlt, .inl ?_⟩
      rw [he, hsl, hwg.gap, hwg.st, hb]
  cases hs with
  | get _ _ _ hf =>
    unfold get
    rw [if_neg (by simp [hi.nm])]
    split
    · exact ⟨[], rfl, by intro _ h; cases h⟩
    · split
      · rename_i g hg
        obtain ⟨h1, h2⟩ := openGroup_mem hg
        obtain ⟨l, e, hl⟩ := key s g rfl hi h1 (by have := (hi.gw g h1).pc; omega)
        exact ⟨l, e, fun e he => .inr (hl e he)⟩
      · cases mem with
        | none => exact ⟨[], rfl, by intro _ h; cases h⟩
        | some a =>
          dsimp only
          generalize hgn : groupNew a s.cfg.stacksz s.cfg.pagesz (newCap s.cfg s.groups) s.cfg.gapsz s.cfg.useguards = gn
          have hin := inv_newGroup hc hi hf (.map a gn.allocsz :: s.log)
          rw [hgn] at hin
          obtain ⟨l, e, hl⟩ := key { s with groups := s.groups ++ [gn], log := .map a gn.allocsz :: s.log } gn rfl hin (by simp) (by rw [← hgn]; exact (newCap_ok hc hi).1)
          refine ⟨l ++ [.map a gn.allocsz], by rw [e]; simp, fun e he => ?_⟩
          rcases List.mem_append.mp he with he | he
          · exact .inr (hl e he)
          · exact .inl ⟨_, _, List.mem_singleton.mp he⟩

/-- **C50** the pages made inaccessible as guards lie in the memory of the program, and hold no live stack and no bookkeeping -/
theorem C50_guards {o : Opts} {p : Nat} (ho : Sane o p) (hm : o.onlymalloc = false) {s s' : S} (r : Reach o p s) {mem : Option Nat} {p1 p2 : Bool} {v : Int} (hs : Step s (.get mem p1 p2) s' v) :
    ∃ l, s'.log = l ++ s.log ∧ ∀ a n, .guard a n ∈ l → (∃ m ∈ mapped s'.log, Within (a, n) m) ∧ (∀ x ∈ live s', Apart2 (a, n) x) ∧ ∀ b ∈ bookkeeping s', Apart2 (a, n) b := by
  obtain ⟨l, e, hl⟩ := get_log ho hm r hs
  have r' := Reach.step r hs
  obtain ⟨hc, hi⟩ := reach_inv ho hm r'
  have hmp := reach_invMp ho hm r'
  have hcfg : s.cfg = s'.cfg := by rw [cfg_reach r, cfg_reach r']
  refine ⟨l, e, fun a n he => ?_⟩
  rcases hl _ he with ⟨_, _, h⟩ | ⟨g, hg, i, hlt, h⟩
  · cases h
  rw [hcfg] at h
  have hgw := hi.gw g hg
  have hin := in_group hgw hlt
  -- where the guard is, relative to a stack of the same group
  have hpos : g.base + alignSize hdrSize s'.cfg.pagesz ≤ a ∧ a + n ≤ g.base + g.allocsz ∧ ∀ j, a + n ≤ at' s'.cfg g.base j ∨ at' s'.cfg g.base j + s'.cfg.stacksz ≤ a := by
    rcases h with h | ⟨h0, h⟩
    · injection h with h1 h2
      refine ⟨?_, by omega, fun j => ?_⟩
      · rw [h1]; simp only [at', O]; omega
      · by_cases hj : j ≤ i
        · right
          have := Nat.mul_le_mul_left (s'.cfg.stacksz + G s'.cfg) hj
          rw [h1]; simp only [at']; omega
        · left
          have h1' := Nat.mul_le_mul_left (s'.cfg.stacksz + G s'.cfg) (show i + 1 ≤ j by omega)
          rw [Nat.mul_succ] at h1'
          rw [h1, h2]; simp only [at'] at *; omega
    · injection h with h1 h2
      subst h0
      have h0' : at' s'.cfg g.base 0 = g.base + O s'.cfg := by simp [at']
      have hO : O s'.cfg = alignSize hdrSize s'.cfg.pagesz + G s'.cfg := rfl
      refine ⟨by omega, by omega, fun j => ?_⟩
      left
      have : at' s'.cfg g.base 0 ≤ at' s'.cfg g.base j := by simp [at']
      omega
  obtain ⟨q1, q2, q3⟩ := hpos
  have hhdr := hc.hdr
  have hst := hc.st; have hpg := hc.page
  -- a stack of any group
  have stk : ∀ x, (x ∈ s'.held ∨ x ∈ s'.free) → a + n ≤ x.1 ∨ x.1 + s'.cfg.stacksz ≤ a := by
    intro x hx
    obtain ⟨k, hk, j, hj, rfl⟩ := hi.mem (x := x) (hx.elim .inl (fun h => .inr (.inl h)))
    have hjn := in_group (hi.gw k hk) (i := j) (by have := (hi.gw k hk).pc; omega)
    rcases gdisj hi.gd hg hk with rfl | hd
    · exact q3 j
    · have : k.base ≤ at' s'.cfg k.base j := by simp only [at']; omega
      rcases hd with d | d
      · left; simp only; omega
      · right; simp only; omega
  refine ⟨⟨(g.base, g.allocsz), ?_, ?_⟩, ?_, ?_⟩
  · rw [hmp.mp.mem_iff]; exact List.mem_map.mpr ⟨g, hg, rfl⟩
  · exact ⟨by simp only; omega, by simp only; omega⟩
  · intro x hx
    obtain ⟨y, hy, rfl⟩ := List.mem_map.mp hx
    rcases stk y (.inl hy) with d | d
    · left; simp only; omega
    · right; simp only; omega
  · intro b hb
    rcases List.mem_append.mp hb with hb | hb
    · obtain ⟨m, hmm, rfl⟩ := List.mem_map.mp hb
      rw [hmp.mp.mem_iff] at hmm
      obtain ⟨k, hk, rfl⟩ := List.mem_map.mp hmm
      rcases gdisj hi.gd hg hk with rfl | hd
      · right; simp only; omega
      · have : hdrSize ≤ k.allocsz := by rw [(hi.gw k hk).al]; unfold O; omega
        rcases hd with d | d
        · left; simp only; omega
        · right; simp only; omega
    · obtain ⟨z, hz, rfl⟩ := List.mem_map.mp hb
      rcases stk z (.inr hz) with d | d
      · left; simp only; omega
      · right; simp only [freedSize]; omega

/-! ## C51: groups -/

/-- **C51** memory is given back to the system only while the program has it: exactly once -/
theorem C51_once {o : Opts} {p : Nat} (ho : Sane o p) (hm : o.onlymalloc = false) {s : S} (r : Reach o p s) : Paired s.log := (reach_invMp ho hm r).pr

/-- **C51** a mapped group is in use, or never was -/
theorem C51_in_use {o : Opts} {p : Nat} (ho : Sane o p) (hm : o.onlymalloc = false) {s : S} (r : Reach o p s) {m : Nat × Nat} (h : m ∈ mapped s.log) :
    (∃ x ∈ live s, Within x m) ∨ ∃ g ∈ s.groups, m = (g.base, g.allocsz) ∧ g.pos = 0 := by
  obtain ⟨hc, hi⟩ := reach_inv ho hm r
  have hmp := reach_invMp ho hm r
  rw [hmp.mp.mem_iff] at h
  obtain ⟨g, hg, rfl⟩ := List.mem_map.mp h
  by_cases hz : g.use = 0
  · exact .inr ⟨g, hg, rfl, hi.z g hg hz⟩
  · left
    have := hi.us g hg
    obtain ⟨x, hx, hb⟩ := List.countP_pos_iff.mp (show 0 < s.held.countP (fun x => x.2 == g.base) by omega)
    have hb : x.2 = g.base := by simpa using hb
    obtain ⟨k, hk, h1, h2, h3, h4⟩ := in_region ho hm r (.inl hx)
    have : k = g := base_inj hc hi.gw hi.gd hk hg (by rw [← h2, hb])
    subst this
    exact ⟨_, List.mem_map.mpr ⟨x, hx, rfl⟩, by simp only; omega, by simp only; omega⟩

/-- **C51** giving back a stack gives the group of that stack back to the system exactly when no other stack of the group is live; no other group is affected -/
theorem C51_exactly {o : Opts} {p : Nat} (ho : Sane o p) (hm : o.onlymalloc = false) {s s' : S} (r : Reach o p s) {x : Nat × Nat} {v : Int} (hs : Step s (.put x) s' v) :
    ∃ m ∈ mapped s.log, Within (x.1, s.cfg.stacksz) m ∧
      (((∀ y ∈ live s', ¬ Within y m) ∧ s'.log.head? = some (.unmap m.1 m.2) ∧ (mapped s'.log) = (mapped s.log).erase m) ∨
       ((∃ y ∈ live s', Within y m) ∧ mapped s'.log = mapped s.log)) := by
  have r' := Reach.step r hs
  obtain ⟨hc, hi⟩ := reach_inv ho hm r
  obtain ⟨hc', hi'⟩ := reach_inv ho hm r'
  have hmp := reach_invMp ho hm r
  have hcfg : s'.cfg = s.cfg := by rw [cfg_reach r, cfg_reach r']
  cases hs with
  | put _ hx =>
    obtain ⟨g, hg, hf, hb⟩ := find_base hi hx
    obtain ⟨k, hk, h1, h2, h3, h4⟩ := in_region ho hm r (.inl hx)
    have : k = g := base_inj hc hi.gw hi.gd hk hg (by rw [← h2, hb])
    subst this
    refine ⟨_, h1, ⟨by simp only; omega, by simp only; omega⟩, ?_⟩
    have h0 := inv0_given hi hx hg hb
    have hmm : { k with use := k.use - 1 } ∈ (given s k x).groups := mem_setGroup.mpr ⟨k, hg, by rw [if_pos rfl]⟩
    have hmq : mapped (remaps s.cfg k x.1 ++ s.log) = mapped s.log := mapped_quiet (remaps_quiet _ _ _)
    rw [put_eq hi.nm hf] at hcfg hi' r' ⊢
    by_cases hz : k.use - 1 = 0
    · rw [if_pos hz] at hcfg hi' r' ⊢
      rw [release_eq (s := given s k x) hc h0 hmm hz] at hcfg hi' r' ⊢
      left
      refine ⟨?_, rfl, by simp only [mapped, given, hmq]⟩
      intro y hy hw
      obtain ⟨z, hz', rfl⟩ := List.mem_map.mp hy
      have hus := h0.us _ hmm
      rw [hz] at hus
      have hne : z.2 ≠ k.base := fun e => List.countP_eq_zero.mp hus.symm z hz' (by simp [e])
      obtain ⟨q, hq, j, hj, e⟩ := Inv.mem hi' (.inl hz')
      have hq0 : q ∈ (given s k x).groups := (List.mem_filter.mp hq).1
      have hqi := in_group (h0.gw q hq0) (i := j) (by have := (h0.gw q hq0).pc; omega)
      have hd : q = { k with use := k.use - 1 } ∨ GDisj q { k with use := k.use - 1 } := gdisj h0.gd hq0 hmm
      have hcc : (given s k x).cfg = s.cfg := rfl
      rcases hd with d | d
      · exact hne (by rw [e]; simp only; rw [d])
      · rw [e] at hw
        unfold Within at hw
        simp only [given] at hw hqi
        have hst := hc.st; have hpg := hc.page
        have : q.base ≤ at' s.cfg q.base j := by simp only [at']; omega
        rcases d with d | d <;> (simp only at d; omega)
    · rw [if_neg hz] at hcfg hi' r' ⊢
      right
      refine ⟨?_, by simp only [given]; exact hmq⟩
      have hus := h0.us _ hmm
      obtain ⟨y, hy, hyb⟩ := List.countP_pos_iff.mp (show 0 < (given s k x).held.countP (fun x => x.2 == k.base) by simp only at hus; omega)
      have hyb : y.2 = k.base := by simpa using hyb
      obtain ⟨q, hq, q1, q2, q3, q4⟩ := in_region ho hm r' (.inl hy)
      have hqk : q = { k with use := k.use - 1 } := base_inj (c := s.cfg) hc h0.gw h0.gd hq hmm (by simp only; rw [← q2, hyb])
      refine ⟨_, List.mem_map.mpr ⟨y, hy, rfl⟩, ?_⟩
      rw [hqk] at q3 q4
      exact ⟨by simp only at *; omega, by simp only at *; omega⟩

/-- **C51** taking a stack gives nothing back to the system -/
theorem C51_get {o : Opts} {p : Nat} (ho : Sane o p) (hm : o.onlymalloc = false) {s s' : S} (r : Reach o p s) {mem : Option Nat} {p1 p2 : Bool} {v : Int} (hs : Step s (.get mem p1 p2) s' v) :
    ∃ l, s'.log = l ++ s.log ∧ ∀ a n, .unmap a n ∉ l := by
  obtain ⟨l, e, hl⟩ := get_log ho hm r hs
  refine ⟨l, e, fun a n he => ?_⟩
  rcases hl _ he with ⟨_, _, h⟩ | ⟨g, _, i, _, h | ⟨_, h⟩⟩ <;> cases h

/-- **C51** the list of free stacks refers only to memory the program has, and to no live stack -/
theorem C51_free {o : Opts} {p : Nat} (ho : Sane o p) (hm : o.onlymalloc = false) {s : S} (r : Reach o p s) {x : Nat × Nat} (hx : x ∈ s.free) :
    (∃ m ∈ mapped s.log, Within (x.1, s.cfg.stacksz) m) ∧ ∀ y ∈ live s, Apart2 (x.1, s.cfg.stacksz) y := by
  obtain ⟨hc, hi⟩ := reach_inv ho hm r
  obtain ⟨g, hg, h1, h2, h3, h4⟩ := in_region ho hm r (.inr hx)
  refine ⟨⟨_, h1, by simp only; omega, by simp only; omega⟩, fun y hy => ?_⟩
  obtain ⟨z, hz, rfl⟩ := List.mem_map.mp hy
  rcases pair_of hi.apart z hz x (by simp [hx]) with e | e
  · right; simp only; omega
  · left; simp only; omega

/-- **C51** nothing undefined happens: every stack unlinked from the list of free stacks was in it, and no counter of stacks in use drops below zero -/
theorem C51_defined {o : Opts} {p : Nat} (ho : Sane o p) {s : S} (r : Reach o p s) : s.fault = false := by
  by_cases hm : o.onlymalloc = true
  · exact (reach_invH hm r).flt
  · exact (reach_inv ho (by simpa using hm) r).2.flt

/-- **C51** closing down gives every mapped group back once -/
theorem C51_destroy {o : Opts} {p : Nat} (ho : Sane o p) (hm : o.onlymalloc = false) {s : S} (r : Reach o p s) : (destroy s).Perm (mapped s.log) := (reach_invMp ho hm r).mp.symm

/-! ## The theorems are not about nothing -/

instance (s : S) : (m : Option Nat) → Decidable (Fresh s m)
  | none => isTrue trivial
  | some a => inferInstanceAs (Decidable (0 < a ∧ a + allocOf s.cfg.stacksz s.cfg.pagesz (newCap s.cfg s.groups) s.cfg.gapsz ≤ W ∧ a + s.cfg.stacksz ≤ W ∧
    (∀ g ∈ s.groups, a + allocOf s.cfg.stacksz s.cfg.pagesz (newCap s.cfg s.groups) s.cfg.gapsz ≤ g.base ∨ g.base + g.allocsz ≤ a) ∧
    (s.cfg.onlymalloc = true → ∀ x ∈ s.held, a + s.cfg.stacksz ≤ x.1 ∨ x.1 + s.cfg.stacksz ≤ a)))

/-- carry out operations -/
def run (s : S) : List Op → Option S
  | [] => some s
  | .get m p1 p2 :: l => if Fresh s m then run (get s m p1 p2).1 l else none
  | .put x :: l => if x ∈ s.held then run (put s x) l else none

theorem run_reach {o : Opts} {p : Nat} : ∀ (l : List Op) {s t : S}, Reach o p s → run s l = some t → Reach o p t
  | [], s, t, r, h => by simp only [run, Option.some.injEq] at h; subst h; exact r
  | .get m p1 p2 :: l, s, t, r, h => by
    unfold run at h
    split at h
    · exact run_reach l (.step r (.get m p1 p2 (by assumption))) h
    · cases h
  | .put x :: l, s, t, r, h => by
    unfold run at h
    split at h
    · exact run_reach l (.step r (.put x (by assumption))) h
    · cases h

theorem runs {o : Opts} {p : Nat} (l : List Op) (q : S → Bool) (h : (run (init o p) l).any q = true) : ∃ s, Reach o p s ∧ q s = true := by
  rw [Option.any_eq_true] at h
  obtain ⟨s, h1, h2⟩ := h
  exact ⟨s, run_reach l .init h1, h2⟩

/-- stacks of 100 bytes (so 128) with gaps of 50 (so 64), groups of 2 at first and at most 4, guarded; pages of 64 -/
def exOpts : Opts := { stacksz := 100, defcap := 2, maxcap := 4, gapsz := 50, useguards := true, nofree := false, nopage := false, onlymalloc := false }
theorem exSane : Sane exOpts 64 := ⟨⟨6, rfl⟩, by decide, by decide⟩
/-- the default settings, 4096 byte pages -/
example : Sane { stacksz := 8388608, defcap := 4, maxcap := 8192, gapsz := 1048576, useguards := false, nofree := false, nopage := false, onlymalloc := false } 4096 := ⟨⟨12, rfl⟩, by decide, by decide⟩

/-- three stacks, in two groups; one given back and in the list of free stacks -/
def exRun : List Op := [.get (some 10000) true true, .get none true true, .get (some 20000) true true, .put (10384, 10000), .get none true true, .put (10192, 10000)]
example : ∃ s, Reach exOpts 64 s ∧ live s = [(10384, 128), (20192, 128)] ∧ s.free = [(10192, 10000)] ∧ mapped s.log = [(20000, 960), (10000, 576)] := by
  obtain ⟨s, r, h⟩ := runs (o := exOpts) (p := 64) exRun (fun s => decide (live s = [(10384, 128), (20192, 128)] ∧ s.free = [(10192, 10000)] ∧ mapped s.log = [(20000, 960), (10000, 576)])) (by decide +kernel)
  exact ⟨s, r, of_decide_eq_true h⟩
/-- giving back the last stack of the first group -/
example : ∃ s s', Reach exOpts 64 s ∧ Step s (.put (10384, 10000)) s' 0 ∧ live s' = [(20192, 128)] ∧ s'.free = [] ∧ mapped s'.log = [(20000, 960)] ∧ s'.log.head? = some (.unmap 10000 576) := by
  obtain ⟨s, r, h⟩ := runs (o := exOpts) (p := 64) exRun (fun s => decide ((10384, 10000) ∈ s.held ∧ live (put s (10384, 10000)) = [(20192, 128)] ∧ (put s (10384, 10000)).free = [] ∧
    mapped (put s (10384, 10000)).log = [(20000, 960)] ∧ (put s (10384, 10000)).log.head? = some (.unmap 10000 576))) (by decide +kernel)
  have h := of_decide_eq_true h
  exact ⟨s, _, r, .put _ h.1, h.2⟩
/-- taking one with guards -/
example : ∃ s', Step (init exOpts 64) (.get (some 10000) true true) s' 0 ∧ s'.log = [.guard 10320 64, .guard 10128 64, .map 10000 576] := ⟨_, .get _ _ _ (by decide), rfl⟩
/-- the system refuses a guard: the new group stays, unused -/
example : ∃ s', Step (init exOpts 64) (.get (some 10000) true false) s' (-1) ∧ live s' = [] ∧ mapped s'.log = [(10000, 576)] := ⟨_, .get _ _ _ (by decide), rfl, rfl⟩
/-- on the heap -/
example : ∃ s, Reach { exOpts with onlymalloc := true } 64 s ∧ live s = [(5000, 128), (9000, 128)] := by
  obtain ⟨s, r, h⟩ := runs (o := { exOpts with onlymalloc := true }) (p := 64) [.get (some 7000) true true, .get (some 9000) true true, .put (7000, 0), .get (some 5000) true true] (fun s => decide (live s = [(5000, 128), (9000, 128)])) (by decide +kernel)
  exact ⟨s, r, of_decide_eq_true h⟩

/-- **False without the bound on the sizes**: with stacks of 2^63 bytes the computed size of a group wraps around, and a stack reaches beyond the memory mapped for it -/
theorem C50_overflow_not_general : ¬ ∀ (o : Opts) (p : Nat) (s : S) (x : Nat × Nat), (∃ k, p = 2 ^ k) → 32 ≤ p → o.stacksz < W → o.gapsz < W → Reach o p s → x ∈ live s → ∃ m ∈ mapped s.log, Within x m := by
  intro h
  obtain ⟨s, r, hp⟩ := runs (o := { exOpts with stacksz := 2 ^ 63, useguards := false }) (p := 64) [.get (some 10000) true true]
    (fun s => decide (live s = [(10192, 2 ^ 63)] ∧ mapped s.log = [(10000, 320)])) (by decide +kernel)
  obtain ⟨h1, h2⟩ := of_decide_eq_true hp
  obtain ⟨m, hm, hw⟩ := h _ _ s (10192, 2 ^ 63) ⟨6, rfl⟩ (by decide) (by decide) (by decide) r (by rw [h1]; simp)
  rw [h2, List.mem_singleton] at hm
  subst hm
  exact absurd hw (by unfold Within; decide)

end Neco.Stack
