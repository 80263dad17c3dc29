import Verif.Proof.Maps
/-! # C49 hashed maps, C10 order of expired deadlines, C53 (which waiters an event wakes) -/
namespace Neco.Maps
open Aat Tree Neco.Spec

/-- updates of a map -/
inductive MOp | insert (k : Key) | delete (k : Key)

/-- specification: a plain finite map from coroutine ids to items -/
def specStep (f : Int → Option Key) : MOp → (Int → Option Key)
  | .insert k => fun i => if i = k.id then some k else f i
  | .delete k => fun i => if i = k.id then none else f i

/-- specification of a sequence of updates from the empty map -/
def specRun (ops : List MOp) : Int → Option Key := ops.foldl specStep (fun _ => none)

/-- `comap` after a sequence of updates (neco.c 3492-3509) -/
def comapRun (h : Key → Nat) (ops : List MOp) : Map :=
  ops.foldl (fun m o => match o with
    | .insert k => (comapInsert h allCompare m k).1
    | .delete k => (comapDelete h allCompare m k).1) Map.empty

/-- `sco_map` after a sequence of updates (neco.c 1885-1899) -/
def scoMapRun (h : Key → Nat) (ops : List MOp) : Map :=
  ops.foldl (fun m o => match o with
    | .insert k => (scoMapInsert h m k).1
    | .delete k => (scoMapDelete h m k).1) Map.empty

/-- the sorted list both represent -/
def listRun (cmp : Key → Key → Ordering) (ops : List MOp) : List Key :=
  ops.foldl (fun l o => match o with
    | .insert k => Omap.insert cmp k l
    | .delete k => Omap.erase cmp k l) []

theorem find_insert {l : List Key} (x : Key) (i : Key) :
    Omap.find allCompare i (Omap.insert allCompare x l) =
      if i.id = x.id then some x else Omap.find allCompare i l := by
  unfold Omap.find Omap.insert
  rw [List.find?_append, List.find?_cons, List.find?_filter, List.find?_filter]
  by_cases h : i.id = x.id
  · have e1 : allCompare i x = .eq := allCompare_eq.2 h
    rw [if_pos h, List.find?_eq_none.2]
    · simp [e1]
    · intro y _
      by_cases hy : i.id = y.id
      · have : allCompare x y = .eq := allCompare_eq.2 (by omega)
        simp [this]
      · have : allCompare i y ≠ .eq := fun c => hy (allCompare_eq.1 c)
        simp [this]
  · have e1 : allCompare i x ≠ .eq := fun c => h (allCompare_eq.1 c)
    rw [if_neg h]
    have : (allCompare i x == Ordering.eq) = false := by simp [e1]
    rw [this]
    simp only
    have hcongr : ∀ y, allCompare i y = .eq → allCompare x y = allCompare x i := by
      intro y hy; have := allCompare_eq.1 hy
      unfold allCompare; rw [this]
    cases hxi : allCompare x i with
    | lt =>
      rw [List.find?_eq_none.2, Option.none_or]
      · congr 1; funext y
        by_cases hy : allCompare i y = .eq
        · simp [hy, hcongr y hy, hxi]
        · simp [hy]
      · intro y _
        by_cases hy : allCompare i y = .eq
        · simp [hcongr y hy, hxi]
        · simp [hy]
    | gt =>
      have e3 : List.find? (fun a => decide ((allCompare x a == Ordering.lt) = true ∧ (allCompare i a == Ordering.eq) = true)) l = none := by
        rw [List.find?_eq_none]
        intro y _
        by_cases hy : allCompare i y = .eq
        · simp [hcongr y hy, hxi]
        · simp [hy]
      rw [e3, Option.or_none]
      congr 1; funext y
      by_cases hy : allCompare i y = .eq
      · simp [hy, hcongr y hy, hxi]
      · simp [hy]
    | eq => exact absurd (allCompare_eq.1 hxi).symm h

theorem find_erase {l : List Key} (x i : Key) :
    Omap.find allCompare i (Omap.erase allCompare x l) =
      if i.id = x.id then none else Omap.find allCompare i l := by
  unfold Omap.find Omap.erase
  rw [List.find?_filter]
  by_cases h : i.id = x.id
  · rw [if_pos h, List.find?_eq_none]
    intro y _
    by_cases hy : allCompare i y = .eq
    · have : allCompare x y = .eq := allCompare_eq.2 (by have := allCompare_eq.1 hy; omega)
      simp [this]
    · simp [hy]
  · rw [if_neg h]
    congr 1; funext y
    by_cases hy : allCompare i y = .eq
    · have : allCompare x y ≠ .eq := fun c => h (by have := allCompare_eq.1 hy; have := allCompare_eq.1 c; omega)
      simp [hy, this]
    · simp [hy]

theorem list_spec (ops : List MOp) (key : Key) :
    Omap.find allCompare key (listRun allCompare ops) = specRun ops key.id := by
  unfold listRun specRun
  have gen : ∀ (ops : List MOp) (l : List Key) (f : Int → Option Key),
      (∀ key, Omap.find allCompare key l = f key.id) →
      Omap.find allCompare key (ops.foldl (fun l o => match o with
        | .insert k => Omap.insert allCompare k l
        | .delete k => Omap.erase allCompare k l) l) = (ops.foldl specStep f) key.id := by
    intro ops
    induction ops with
    | nil => intro l f h; exact h key
    | cons o ops ih =>
      intro l f h
      simp only [List.foldl_cons]
      apply ih
      intro key
      cases o with
      | insert k => simp only [find_insert, specStep, h]
      | delete k => simp only [find_erase, specStep, h]
  exact gen ops [] _ (fun _ => rfl)

theorem comap_rep (h : Key → Nat) (hh : ∀ a b, a.id = b.id → h a = h b) (ops : List MOp) :
    Rep allCompare h (comapRun h ops) (listRun allCompare ops) := by
  unfold comapRun listRun
  have gen : ∀ (ops : List MOp) (m : Map) (l : List Key), Rep allCompare h m l →
      Rep allCompare h (ops.foldl (fun m o => match o with
        | .insert k => (comapInsert h allCompare m k).1
        | .delete k => (comapDelete h allCompare m k).1) m)
       (ops.foldl (fun l o => match o with
        | .insert k => Omap.insert allCompare k l
        | .delete k => Omap.erase allCompare k l) l) := by
    intro ops
    induction ops with
    | nil => intro m l h; exact h
    | cons o ops ih =>
      intro m l hr
      simp only [List.foldl_cons]
      apply ih
      have hh' : ∀ a b, allCompare a b = .eq → h a = h b := fun a b e => hh a b (allCompare_eq.1 e)
      cases o with
      | insert k => exact (rep_insert hh' hr k).1
      | delete k => exact (rep_delete hh' hr k).1
  exact gen ops _ _ ⟨List.Pairwise.nil, fun _ => rfl⟩

/-- C49. Whatever function of the identifier is used for hashing, looking up an identifier after any
sequence of insertions and deletions finds exactly the item last inserted under that identifier and not
deleted since. -/
theorem C49_lookup (h : Key → Nat) (hh : ∀ a b, a.id = b.id → h a = h b) (ops : List MOp) (key : Key) :
    comapSearch h allCompare (comapRun h ops) key = specRun ops key.id := by
  have hh' : ∀ a b, allCompare a b = .eq → h a = h b := fun a b e => hh a b (allCompare_eq.1 e)
  rw [rep_search hh' (comap_rep h hh ops), list_spec]

/-- C49, for the hash of the code. -/
theorem C49_lookup_mix13 (ops : List MOp) (key : Key) :
    comapSearch byId allCompare (comapRun byId ops) key = specRun ops key.id :=
  C49_lookup byId (fun a b e => by unfold byId; rw [e]) ops key

/-- C49. The shard index is always inside the array of shards. -/
theorem C49_shard_in_range (k : Int) : shard k < nshards := by
  unfold shard nshards
  have : (mix13 (BitVec.ofInt 64 k) &&& 511#64).toNat ≤ 511 := by
    rw [BitVec.toNat_and]; exact Nat.and_le_right
  omega

theorem scoMap_roots (h : Key → Nat) (ops : List MOp) : (scoMapRun h ops).roots = (comapRun h ops).roots := by
  unfold scoMapRun comapRun
  have gen : ∀ (ops : List MOp) (m m' : Map), m.roots = m'.roots →
      (ops.foldl (fun m o => match o with
        | .insert k => (scoMapInsert h m k).1
        | .delete k => (scoMapDelete h m k).1) m).roots =
      (ops.foldl (fun m o => match o with
        | .insert k => (comapInsert h allCompare m k).1
        | .delete k => (comapDelete h allCompare m k).1) m').roots := by
    intro ops
    induction ops with
    | nil => intro m m' e; exact e
    | cons o ops ih =>
      intro m m' e
      simp only [List.foldl_cons]
      apply ih
      cases o with
      | insert k => simp [scoMapInsert, comapInsert, Map.setRoot, e]
      | delete k => simp [scoMapDelete, comapDelete, Map.setRoot, e]
  exact gen ops _ _ rfl

/-- C49. For the map of blocked coroutines: a deletion returns the item stored under the identifier
(nothing if there is none), after any sequence of updates. -/
theorem C49_paused_delete (h : Key → Nat) (hh : ∀ a b, a.id = b.id → h a = h b) (ops : List MOp) (key : Key) :
    (scoMapDelete h (scoMapRun h ops) key).2 = specRun ops key.id := by
  have hh' : ∀ a b, allCompare a b = .eq → h a = h b := fun a b e => hh a b (allCompare_eq.1 e)
  have := (rep_delete hh' (comap_rep h hh ops) key).2.1
  rw [list_spec] at this
  rw [← this]
  unfold scoMapDelete comapDelete
  rw [scoMap_roots]

theorem erase_length_of_find {l : List Key} (hs : Omap.Sorted allCompare l) (x : Key) :
    (Omap.erase allCompare x l).length + (if (Omap.find allCompare x l).isSome then 1 else 0) = l.length := by
  induction l with
  | nil => rfl
  | cons y l ih =>
    have hs' : Omap.Sorted allCompare l := (List.pairwise_cons.1 hs).2
    have hy := (List.pairwise_cons.1 hs).1
    have ih := ih hs'
    unfold Omap.erase Omap.find at *
    by_cases hc : allCompare x y = .eq
    · have hr := eq_right hc hy
      rw [List.filter_cons, List.find?_cons]
      simp only [hc]
      rw [filter_all (l := l) (p := fun y => allCompare x y != .eq) (fun z hz => by simp [hr z hz])]
      simp
    · rw [List.filter_cons, List.find?_cons]
      have e1 : (allCompare x y == Ordering.eq) = false := by simp [hc]
      simp only [e1, bne_iff_ne, ne_eq, hc, not_false_eq_true, if_true, List.length_cons]
      omega

theorem insert_length {l : List Key} (hs : Omap.Sorted allCompare l) (x : Key) :
    (Omap.insert allCompare x l).length = (Omap.erase allCompare x l).length + 1 := by
  rw [← gt_lt_split x l hs]
  simp [Omap.insert]; omega

theorem paused_count (h : Key → Nat) (hh : ∀ a b, a.id = b.id → h a = h b) (ops : List MOp) :
    (scoMapRun h ops).count = (listRun allCompare ops).length := by
  unfold scoMapRun listRun
  have hh' : ∀ a b, allCompare a b = .eq → h a = h b := fun a b e => hh a b (allCompare_eq.1 e)
  have gen : ∀ (ops : List MOp) (m : Map) (l : List Key), Rep allCompare h m l → m.count = l.length →
      (ops.foldl (fun m o => match o with
        | .insert k => (scoMapInsert h m k).1
        | .delete k => (scoMapDelete h m k).1) m).count =
       ((ops.foldl (fun l o => match o with
        | .insert k => Omap.insert allCompare k l
        | .delete k => Omap.erase allCompare k l) l).length : Int) := by
    intro ops
    induction ops with
    | nil => intro m l _ h; exact h
    | cons o ops ih =>
      intro m l hr hc
      simp only [List.foldl_cons]
      cases o with
      | insert k =>
        have hi := rep_insert hh' hr k
        apply ih
        · exact hi.1
        · have hlen := insert_length hr.1 k
          have hel := erase_length_of_find hr.1 k
          have e2 : (insert allCompare (m.roots (h k)) k).2 = Omap.find allCompare k l := hi.2.1
          simp only [scoMapInsert, e2]
          cases hf : Omap.find allCompare k l <;> simp [hf] at hel ⊢ <;> omega
      | delete k =>
        have hi := rep_delete hh' hr k
        apply ih
        · exact hi.1
        · have hel := erase_length_of_find hr.1 k
          have e2 : (delete allCompare (m.roots (h k)) k).2 = Omap.find allCompare k l := hi.2.1
          simp only [scoMapDelete, e2]
          cases hf : Omap.find allCompare k l <;> simp [hf] at hel ⊢ <;> omega
  exact gen ops _ _ ⟨List.Pairwise.nil, fun _ => rfl⟩ rfl

theorem find_isSome {l : List Key} (i : Int) :
    (Omap.find allCompare { id := i } l).isSome ↔ i ∈ l.map Key.id := by
  unfold Omap.find
  rw [List.find?_isSome]
  simp only [List.mem_map, beq_iff_eq]
  constructor
  · rintro ⟨x, hx, h⟩; exact ⟨x, hx, (allCompare_eq.1 h).symm⟩
  · rintro ⟨x, hx, h⟩; exact ⟨x, hx, allCompare_eq.2 h.symm⟩

/-- C49. The count kept for the map of blocked coroutines is the number of identifiers present:
there is a list without repetition of exactly the identifiers present, and its length is the count. -/
theorem C49_paused_count (h : Key → Nat) (hh : ∀ a b, a.id = b.id → h a = h b) (ops : List MOp) :
    ∃ ids : List Int, ids.Nodup ∧ (∀ i, i ∈ ids ↔ (specRun ops i).isSome) ∧
      (scoMapRun h ops).count = ids.length := by
  refine ⟨(listRun allCompare ops).map Key.id, ?_, ?_, ?_⟩
  · have hs : Omap.Sorted allCompare (listRun allCompare ops) := (comap_rep h hh ops).1
    rw [List.nodup_iff_pairwise_ne, List.pairwise_map]
    exact hs.imp (fun {a b} hab e => by
      have := allCompare_eq.2 e; rw [this] at hab; cases hab)
  · intro i
    rw [← find_isSome, list_spec]
  · rw [paused_count h hh]; simp

/-- C49 witness: two ids, one replaced, one deleted. -/
example : specRun [.insert {id := 1}, .insert {id := 2, evfd := 7}, .delete {id := 1}] 2 = some {id := 2, evfd := 7} := by
  decide

/-! ## C53: which waiters an event wakes -/

/-- `evmap` after a sequence of waits beginning and ending (neco.c 3527-3547) -/
def evmapRun (ops : List MOp) : Map :=
  ops.foldl (fun m o => match o with
    | .insert k => (comapInsert byFd evCompare m k).1
    | .delete k => (comapDelete byFd evCompare m k).1) Map.empty

/-- specification: the list of waiters present, in any order of arrival: last insertion wins per
(descriptor, direction, coroutine) -/
def waiting (ops : List MOp) (k : Key) : Prop :=
  k ∈ listRun evCompare ops

theorem evmap_rep (ops : List MOp) : Rep evCompare byFd (evmapRun ops) (listRun evCompare ops) := by
  unfold evmapRun listRun
  have gen : ∀ (ops : List MOp) (m : Map) (l : List Key), Rep evCompare byFd m l →
      Rep evCompare byFd (ops.foldl (fun m o => match o with
        | .insert k => (comapInsert byFd evCompare m k).1
        | .delete k => (comapDelete byFd evCompare m k).1) m)
       (ops.foldl (fun l o => match o with
        | .insert k => Omap.insert evCompare k l
        | .delete k => Omap.erase evCompare k l) l) := by
    intro ops
    induction ops with
    | nil => intro m l h; exact h
    | cons o ops ih =>
      intro m l hr
      simp only [List.foldl_cons]
      apply ih
      have hh' : ∀ a b, evCompare a b = .eq → byFd a = byFd b := fun a b e => by
        unfold byFd; rw [(evCompare_eq.1 e).1]
      cases o with
      | insert k => exact (rep_insert hh' hr k).1
      | delete k => exact (rep_delete hh' hr k).1
  exact gen ops _ _ ⟨List.Pairwise.nil, fun _ => rfl⟩

theorem takeWhile_dropWhile_convex (fd kind : Int) : ∀ (l : List Key), Omap.Sorted evCompare l →
    (∀ k ∈ l, 0 < k.id) →
    (l.dropWhile (fun y => evCompare { id := 0, evfd := fd, evkind := kind } y == .gt)).takeWhile
      (fun k => decide (k.evfd = fd ∧ k.evkind = kind)) =
    l.filter (fun k => decide (k.evfd = fd ∧ k.evkind = kind)) := by
  intro l hs hpos
  induction l with
  | nil => rfl
  | cons y l ih =>
    have hs' : Omap.Sorted evCompare l := (List.pairwise_cons.1 hs).2
    have hy := (List.pairwise_cons.1 hs).1
    have hpos' : ∀ k ∈ l, 0 < k.id := fun k hk => hpos k (by simp [hk])
    have hpy := hpos y (by simp)
    by_cases hg : evCompare { id := 0, evfd := fd, evkind := kind } y = .gt
    · rw [List.dropWhile_cons_of_pos (by simp [hg]), ih hs' hpos', List.filter_cons]
      rw [evCompare_gt] at hg
      simp only at hg
      rw [if_neg]; simp; omega
    · rw [List.dropWhile_cons_of_neg (by simp [hg])]
      -- from here on everything is at or above the key
      have hup : ∀ (l : List Key), Omap.Sorted evCompare l →
          (∀ k ∈ l, evCompare { id := 0, evfd := fd, evkind := kind } k ≠ .gt) →
          l.takeWhile (fun k => decide (k.evfd = fd ∧ k.evkind = kind)) =
          l.filter (fun k => decide (k.evfd = fd ∧ k.evkind = kind)) := by
        intro l hs hge
        induction l with
        | nil => rfl
        | cons z l ih =>
          have hs' : Omap.Sorted evCompare l := (List.pairwise_cons.1 hs).2
          have hz := (List.pairwise_cons.1 hs).1
          rw [List.takeWhile_cons, List.filter_cons]
          by_cases hm : z.evfd = fd ∧ z.evkind = kind
          · simp only [hm, and_self, decide_true, if_true]
            rw [ih hs' (fun k hk => hge k (by simp [hk]))]
          · simp only [hm, decide_false, Bool.false_eq_true, if_false]
            symm; apply filter_none
            intro k hk
            have h1 := hge z (by simp)
            have h2 := evCompare_lt.1 (hz k hk)
            simp only [ne_eq, evCompare_gt] at h1
            simp only [decide_eq_false_iff_not]
            omega
      apply hup _ hs
      intro k hk
      rcases List.mem_cons.1 hk with rfl | hk
      · exact hg
      · have h2 := evCompare_lt.1 (hy k hk)
        simp only [ne_eq, evCompare_gt] at hg ⊢
        omega

/-- C53. When descriptor `fd` is reported ready in direction `kind`, the coroutines woken are exactly
the ones waiting for that descriptor and direction — each once, in order of identifier — and no other. -/
theorem C53_wakes_exactly (ops : List MOp) (fd kind : Int) (hid : ∀ k ∈ listRun evCompare ops, 0 < k.id) :
    (∀ k, k ∈ evWake (evmapRun ops) fd kind ↔ waiting ops k ∧ k.evfd = fd ∧ k.evkind = kind) ∧
    (evWake (evmapRun ops) fd kind).Pairwise (fun a b => a.id < b.id) := by
  have hr := evmap_rep ops
  have hs := rep_sorted hr (byFd { id := 0, evfd := fd, evkind := kind })
  have e : evWake (evmapRun ops) fd kind =
      (listRun evCompare ops).filter (fun k => decide (k.evfd = fd ∧ k.evkind = kind)) := by
    unfold evWake evmapIter
    dsimp only
    rw [walk_from_lowerBound _ _ _ hs, takeWhile_dropWhile_convex _ _ _ hs]
    · rw [hr.2, List.filter_filter]
      apply List.filter_congr
      intro k _
      by_cases hk : k.evfd = fd ∧ k.evkind = kind
      · simp [hk, byFd]
      · simp [hk]
    · intro k hk; rw [hr.2] at hk; exact hid k (List.mem_filter.1 hk).1
  rw [e]
  refine ⟨?_, ?_⟩
  · intro k; simp [waiting]
  · have := hr.1.filter (fun k => decide (k.evfd = fd ∧ k.evkind = kind))
    have hmem : ∀ k ∈ (listRun evCompare ops).filter (fun k => decide (k.evfd = fd ∧ k.evkind = kind)),
        k.evfd = fd ∧ k.evkind = kind := by intro k hk; simpa using (List.mem_filter.1 hk).2
    refine this.imp_of_mem ?_
    intro a b ha hb hab
    have h1 := hmem a ha
    have h2 := hmem b hb
    have := evCompare_lt.1 hab
    omega

/-- C53. `evexists` answers whether somebody waits for the descriptor in that direction. -/
theorem C53_evexists (ops : List MOp) (fd kind : Int) (hid : ∀ k ∈ listRun evCompare ops, 0 < k.id) :
    (evexists (evmapRun ops) fd kind).isSome ↔ ∃ k, waiting ops k ∧ k.evfd = fd ∧ k.evkind = kind := by
  have h := (C53_wakes_exactly ops fd kind hid).1
  have hw : (∃ k, waiting ops k ∧ k.evfd = fd ∧ k.evkind = kind) ↔ evWake (evmapRun ops) fd kind ≠ [] := by
    constructor
    · rintro ⟨k, hk⟩ he; have := (h k).2 hk; rw [he] at this; simp at this
    · intro hne
      obtain ⟨k, ks, e⟩ := List.exists_cons_of_ne_nil hne
      exact ⟨k, (h k).1 (by rw [e]; simp)⟩
  rw [hw]
  unfold evexists evWake
  dsimp only
  cases evmapIter byFd (evmapRun ops) { id := 0, evfd := fd, evkind := kind } with
  | none => simp [walk]
  | some it =>
    simp only [walk]
    by_cases hm : it.evfd = fd ∧ it.evkind = kind
    · simp [hm]
    · simp [hm]

example : ∀ k ∈ listRun evCompare [.insert {id := 3, evfd := 5, evkind := 1}, .insert {id := 1, evfd := 5, evkind := 1},
    .insert {id := 2, evfd := 5, evkind := 2}], 0 < k.id := by decide
example : (evWake (evmapRun [.insert {id := 3, evfd := 5, evkind := 1}, .insert {id := 1, evfd := 5, evkind := 1},
    .insert {id := 2, evfd := 5, evkind := 2}]) 5 1).map Key.id = [1, 3] := by decide +kernel

/-! ## C10: order of expired deadlines -/

/-- the deadline queue after any sequence of updates (neco.c 4498-4506 inserts and deletes) -/
def dlRun (ops : List MOp) : Tree Key :=
  ops.foldl (fun t o => match o with
    | .insert k => (insert dlCompare t k).1
    | .delete k => (delete dlCompare t k).1) .nil

theorem dl_rep (ops : List MOp) : (dlRun ops).toList = listRun dlCompare ops ∧
    Omap.Sorted dlCompare (listRun dlCompare ops) := by
  unfold dlRun listRun
  have gen : ∀ (ops : List MOp) (t : Tree Key), Omap.Sorted dlCompare t.toList →
      (ops.foldl (fun t o => match o with
        | .insert k => (insert dlCompare t k).1
        | .delete k => (delete dlCompare t k).1) t).toList =
       (ops.foldl (fun l o => match o with
        | .insert k => Omap.insert dlCompare k l
        | .delete k => Omap.erase dlCompare k l) t.toList) ∧
      Omap.Sorted dlCompare (ops.foldl (fun l o => match o with
        | .insert k => Omap.insert dlCompare k l
        | .delete k => Omap.erase dlCompare k l) t.toList) := by
    intro ops
    induction ops with
    | nil => intro t h; exact ⟨rfl, h⟩
    | cons o ops ih =>
      intro t hs
      simp only [List.foldl_cons]
      cases o with
      | insert k =>
        have e := (insert0_spec k t hs).1
        have := ih (insert dlCompare t k).1 (by
          show Omap.Sorted dlCompare (insert0 dlCompare k t).1.toList
          rw [e]; exact insert_sorted k _ hs)
        rw [show (insert dlCompare t k).1.toList = Omap.insert dlCompare k t.toList from e] at this
        exact this
      | delete k =>
        have e := (delete0_spec k t hs).1
        have := ih (delete dlCompare t k).1 (by
          show Omap.Sorted dlCompare (delete0 dlCompare k t).1.toList
          rw [e]; exact erase_sorted k _ hs)
        rw [show (delete dlCompare t k).1.toList = Omap.erase dlCompare k t.toList from e] at this
        exact this
  exact gen ops _ List.Pairwise.nil

/-- C10. The scheduler's pass over the deadlines wakes exactly the waiting coroutines whose deadline is
past, in order of (deadline, identifier), each once. -/
theorem C10_expired_in_order (ops : List MOp) (now : Int) :
    (∀ k, k ∈ dlWake (dlRun ops) now ↔ k ∈ listRun dlCompare ops ∧ k.deadline < now) ∧
    (dlWake (dlRun ops) now).Pairwise (fun a b => a.deadline < b.deadline ∨ (a.deadline = b.deadline ∧ a.id < b.id)) := by
  obtain ⟨h1, h2⟩ := dl_rep ops
  have hs : Omap.Sorted dlCompare (dlRun ops).toList := by rw [h1]; exact h2
  have e : dlWake (dlRun ops) now = (listRun dlCompare ops).filter (fun k => decide (k.deadline < now)) := by
    unfold dlWake
    rw [first_spec, walk_spec (cmp := dlCompare) _ _ hs _ [] _ rfl (by omega), h1]
    clear hs h1
    generalize listRun dlCompare ops = l at h2
    induction l with
    | nil => rfl
    | cons z l ih =>
      have hs' : Omap.Sorted dlCompare l := (List.pairwise_cons.1 h2).2
      have hz := (List.pairwise_cons.1 h2).1
      rw [List.takeWhile_cons, List.filter_cons]
      by_cases hm : z.deadline < now
      · simp only [hm, decide_true, if_true]; rw [ih hs']
      · simp only [hm, decide_false, Bool.false_eq_true, if_false]
        symm; apply filter_none
        intro k hk
        have := dlCompare_lt.1 (hz k hk)
        simp only [decide_eq_false_iff_not]; omega
  rw [e]
  refine ⟨by intro k; simp, ?_⟩
  exact (h2.filter _).imp (fun h => dlCompare_lt.1 h)

example : (dlWake (dlRun [.insert {id := 1, deadline := 30}, .insert {id := 2, deadline := 10},
    .insert {id := 3, deadline := 20}, .insert {id := 4, deadline := 10}]) 25).map Key.id = [2, 4, 3] := by decide +kernel

end Neco.Maps
