import Verif.Spec.Queue

/-! # Helper lemmas about the queues with pointers -/

namespace Neco.Colist

/-- links not concerned stay -/
theorem Linked.congr {m m' : Mem} : ∀ {l : List Nat} {a z : Addr}, Linked m a l z →
    m'.next a = m.next a → m'.prev z = m.prev z → (∀ n ∈ l, m'.next (.nd n) = m.next (.nd n) ∧ m'.prev (.nd n) = m.prev (.nd n)) → Linked m' a l z
  | [], _, _, h, h1, h2, _ => ⟨h1.trans h.1, h2.trans h.2⟩
  | n :: l, _, _, h, h1, h2, h3 => ⟨h1.trans h.1, (h3 n (by simp)).2.trans h.2.1, Linked.congr h.2.2 (h3 n (by simp)).1 h2 (fun k hk => h3 k (by simp [hk]))⟩

theorem Linked.split {m : Mem} : ∀ {l k : List Nat} {a z : Addr} {n : Nat}, Linked m a (l ++ n :: k) z → Linked m a l (.nd n) ∧ Linked m (.nd n) k z
  | [], _, _, _, _, h => ⟨⟨h.1, h.2.1⟩, h.2.2⟩
  | _ :: l, _, _, _, _, h => ⟨⟨h.1, h.2.1, (Linked.split (l := l) h.2.2).1⟩, (Linked.split (l := l) h.2.2).2⟩

theorem Linked.join {m : Mem} : ∀ {l k : List Nat} {a z : Addr} {n : Nat}, Linked m a l (.nd n) → Linked m (.nd n) k z → Linked m a (l ++ n :: k) z
  | [], _, _, _, _, h, h' => ⟨h.1, h.2, h'⟩
  | _ :: l, _, _, _, _, h, h' => ⟨h.1, h.2.1, Linked.join (l := l) h.2.2 h'⟩

/-- the address before the end -/
def lastOf (a : Addr) : List Nat → Addr
  | [] => a
  | n :: l => lastOf (.nd n) l
/-- the address after the start -/
def firstOf (z : Addr) : List Nat → Addr
  | [] => z
  | n :: _ => .nd n

theorem Linked.last {m : Mem} : ∀ {l : List Nat} {a z : Addr}, Linked m a l z → m.prev z = lastOf a l
  | [], _, _, h => h.2
  | _ :: l, _, _, h => Linked.last (l := l) h.2.2
theorem Linked.first {m : Mem} : ∀ {l : List Nat} {a z : Addr}, Linked m a l z → m.next a = firstOf z l
  | [], _, _, h => h.1
  | _ :: _, _, _, h => h.1

theorem lastOf_cases (a : Addr) : ∀ l : List Nat, (l = [] ∧ lastOf a l = a) ∨ ∃ n ∈ l, lastOf a l = .nd n
  | [] => .inl ⟨rfl, rfl⟩
  | n :: l => by
    rcases lastOf_cases (.nd n) l with ⟨rfl, h⟩ | ⟨k, hk, h⟩
    · exact .inr ⟨n, by simp, h⟩
    · exact .inr ⟨k, by simp [hk], h⟩

theorem firstOf_cases (z : Addr) : ∀ l : List Nat, (l = [] ∧ firstOf z l = z) ∨ ∃ n ∈ l, firstOf z l = .nd n
  | [] => .inl ⟨rfl, rfl⟩
  | n :: _ => .inr ⟨n, by simp, rfl⟩

/-- replacing the end: only the link before it changes -/
theorem Linked.setEnd {m m' : Mem} : ∀ {l : List Nat} {a z z' : Addr}, Linked m a l z → l.Nodup → (∀ n ∈ l, a ≠ .nd n) →
    m'.next (lastOf a l) = z' → m'.prev z' = lastOf a l →
    (∀ x, (x = a ∨ ∃ n ∈ l, x = .nd n) → x ≠ lastOf a l → m'.next x = m.next x) → (∀ n ∈ l, m'.prev (.nd n) = m.prev (.nd n)) → Linked m' a l z'
  | [], _, _, _, _, _, _, h1, h2, _, _ => ⟨h1, h2⟩
  | n :: l, a, _, _, h, hn, ha, h1, h2, h3, h4 => by
    have hn' := List.nodup_cons.mp hn
    refine ⟨?_, (h4 n (by simp)).trans h.2.1, Linked.setEnd h.2.2 hn'.2 (fun k hk e => hn'.1 (by injection e with e; rw [e]; exact hk)) h1 h2 ?_ (fun k hk => h4 k (by simp [hk]))⟩
    · rw [h3 a (.inl rfl) ?_]; exact h.1
      intro e
      rcases lastOf_cases (.nd n) l with ⟨_, e'⟩ | ⟨k, hk, e'⟩
      · exact ha n (by simp) (e.trans e')
      · exact ha k (by simp [hk]) (e.trans e')
    · rintro x (rfl | ⟨k, hk, rfl⟩) hx
      · exact h3 _ (.inr ⟨n, by simp, rfl⟩) hx
      · exact h3 _ (.inr ⟨k, by simp [hk], rfl⟩) hx

theorem remove_next (m : Mem) (n : Nat) (x : Addr) : (remove m n).next x = if x = .nd n then .nd n else if x = m.prev (.nd n) then m.next (.nd n) else m.next x := by
  simp only [remove, Mem.setNext, Mem.setPrev]

theorem remove_prev (m : Mem) (n : Nat) (x : Addr) :
    (remove m n).prev x = if x = .nd n then .nd n else if x = m.next (.nd n) then m.prev (.nd n) else m.prev x := by
  have e : (m.setNext (m.prev (.nd n)) (m.next (.nd n))).next (.nd n) = m.next (.nd n) := by simp [Mem.setNext]
  unfold remove
  dsimp only
  rw [e]
  rfl

theorem holds_without {m : Mem} {s : Q} {n : Nat} (h : Holds m s) (hn : n ∈ s.nodes) : Holds (remove m n) (s.without n) := by
  by_cases hin : ∃ i, n ∈ s.q i
  · obtain ⟨i, hi⟩ := hin
    have hl := h.linked i (h.known i n hi).1
    obtain ⟨l, k, e⟩ := List.append_of_mem hi
    have hnd := h.once i
    rw [e] at hl hnd
    obtain ⟨hl1, hl2⟩ := hl.split
    have e1 := hl1.last
    have e2 := hl2.first
    have hnl : n ∉ l := by
      intro hx; exact (List.nodup_append.mp hnd).2.2 n hx n (by simp) rfl
    have hnk : n ∉ k := (List.nodup_cons.mp (List.nodup_append.mp hnd).2.1).1
    have hlk : ∀ x ∈ l, x ∉ k := fun x hx hx' => (List.nodup_append.mp hnd).2.2 x hx x (by simp [hx']) rfl
    have hndl := (List.nodup_append.mp hnd).1
    have hndk := (List.nodup_cons.mp (List.nodup_append.mp hnd).2.1).2
    have hself : m.prev (.nd n) ≠ .nd n := by
      rw [e1]
      rcases lastOf_cases (.hd i) l with ⟨_, e'⟩ | ⟨x, hx, e'⟩ <;> rw [e'] <;> intro e
      · cases e
      · injection e with e; subst e; exact hnl hx
    have hrn := remove_next m n
    have hrp := remove_prev m n
    rw [e1, e2] at hrn hrp
    have hpre : ∀ x, x ∈ l → Addr.nd x ≠ firstOf (.tl i) k := by
      intro x hx e'
      rcases firstOf_cases (.tl i) k with ⟨_, e2⟩ | ⟨y, hy, e2⟩ <;> rw [e2] at e'
      · cases e'
      · injection e' with e'; subst e'; exact hlk _ hx hy
    have hsuf : ∀ x, x ∈ k → Addr.nd x ≠ lastOf (.hd i) l := by
      intro x hx e'
      rcases lastOf_cases (.hd i) l with ⟨_, e2⟩ | ⟨y, hy, e2⟩ <;> rw [e2] at e'
      · cases e'
      · injection e' with e'; subst e'; exact hlk _ hy hx
    have hln : lastOf (.hd i) l ≠ .nd n := by rw [← e1]; exact hself
    have hfn : firstOf (.tl i) k ≠ .nd n := by
      rcases firstOf_cases (.tl i) k with ⟨_, e2⟩ | ⟨y, hy, e2⟩ <;> rw [e2] <;> intro e
      · cases e
      · injection e with e; subst e; exact hnk hy
    -- the part before
    have hA : Linked (remove m n) (.hd i) l (firstOf (.tl i) k) := by
      refine hl1.setEnd hndl (by intro _ _ h; cases h) ?_ ?_ ?_ ?_
      · rw [hrn, if_neg hln, if_pos rfl]
      · rw [hrp, if_neg hfn, if_pos rfl]
      · rintro x hx hne
        rw [hrn, if_neg ?_, if_neg hne]
        rintro rfl
        rcases hx with hx | ⟨y, hy, hx⟩
        · cases hx
        · injection hx with hx; subst hx; exact hnl hy
      · intro x hx
        rw [hrp, if_neg (fun e => hnl (by injection e with e; rw [← e]; exact hx)), if_neg (hpre x hx)]
    have hB : Linked (remove m n) (.hd i) (l ++ k) (.tl i) := by
      cases hk : k with
      | nil => rw [hk] at hA; rw [List.append_nil]; exact hA
      | cons y k' =>
        rw [hk] at hA hl2 hndk hsuf
        refine Linked.join hA ?_
        refine hl2.2.2.congr ?_ ?_ ?_
        · rw [hrn, if_neg (fun e => hnk (by injection e with e; rw [hk, ← e]; simp)), if_neg (hsuf y (by simp))]
        · rw [hrp, if_neg (by intro e; cases e), if_neg (by rw [hk]; intro e; cases e)]
        · intro x hx
          have hxn : Addr.nd x ≠ .nd n := fun e => hnk (by injection e with e; rw [hk, ← e]; simp [hx])
          refine ⟨by rw [hrn, if_neg hxn, if_neg (hsuf x (by simp [hx]))], ?_⟩
          rw [hrp, if_neg hxn, if_neg ?_]
          rw [hk]; intro e; simp only [firstOf] at e; injection e with e; subst e
          exact (List.nodup_cons.mp hndk).1 hx
    have hqi : (s.without n).q i = l ++ k := by
      simp only [Q.without]
      rw [e, List.filter_append, List.filter_cons_of_neg (by simp)]
      congr 1 <;> rw [List.filter_eq_self] <;> intro x hx <;> simp
      · rintro rfl; exact hnl hx
      · rintro rfl; exact hnk hx
    have hqj : ∀ j, j ≠ i → (s.without n).q j = s.q j := by
      intro j hj
      simp only [Q.without]
      rw [List.filter_eq_self]
      intro x hx; simp; rintro rfl
      exact hj (h.one j i _ hx hi)
    constructor
    · intro j hj
      by_cases hji : j = i
      · subst hji; rw [hqi]; exact hB
      · rw [hqj j hji]
        have hd : ∀ x ∈ s.q j, Addr.nd x ≠ .nd n ∧ Addr.nd x ≠ lastOf (.hd i) l ∧ Addr.nd x ≠ firstOf (.tl i) k := by
          intro x hx
          refine ⟨?_, ?_, ?_⟩
          · intro e'; injection e' with e'; subst e'; exact hji (h.one j i _ hx hi)
          · intro e'
            rcases lastOf_cases (.hd i) l with ⟨_, e2⟩ | ⟨y, hy, e2⟩ <;> rw [e2] at e'
            · cases e'
            · injection e' with e'; subst e'; exact hji (h.one j i _ hx (by rw [e]; simp [hy]))
          · intro e'
            rcases firstOf_cases (.tl i) k with ⟨_, e2⟩ | ⟨y, hy, e2⟩ <;> rw [e2] at e'
            · cases e'
            · injection e' with e'; subst e'; exact hji (h.one j i _ hx (by rw [e]; simp [hy]))
        refine (h.linked j hj).congr ?_ ?_ ?_
        · rw [hrn, if_neg (by intro e; cases e), if_neg ?_]
          intro e'
          rcases lastOf_cases (.hd i) l with ⟨_, e2⟩ | ⟨y, hy, e2⟩ <;> rw [e2] at e'
          · injection e' with e'; exact hji e'
          · cases e'
        · rw [hrp, if_neg (by intro e; cases e), if_neg ?_]
          intro e'
          rcases firstOf_cases (.tl i) k with ⟨_, e2⟩ | ⟨y, hy, e2⟩ <;> rw [e2] at e'
          · injection e' with e'; exact hji e'
          · cases e'
        · intro x hx
          obtain ⟨d1, d2, d3⟩ := hd x hx
          exact ⟨by rw [hrn, if_neg d1, if_neg d2], by rw [hrp, if_neg d1, if_neg d3]⟩
    · intro x hx hno
      by_cases hxn : x = n
      · subst hxn; exact ⟨by rw [hrn, if_pos rfl], by rw [hrp, if_pos rfl]⟩
      · have hno' : ∀ j, x ∉ s.q j := by
          intro j hj
          refine hno j ?_
          simp only [Q.without, List.mem_filter]; exact ⟨hj, by simp [hxn]⟩
        obtain ⟨a1, a2⟩ := h.alone x hx hno'
        have d1 : Addr.nd x ≠ .nd n := by intro e'; injection e' with e'; exact hxn e'
        refine ⟨?_, ?_⟩
        · rw [hrn, if_neg d1, if_neg ?_]; exact a1
          intro e'
          rcases lastOf_cases (.hd i) l with ⟨_, e2⟩ | ⟨y, hy, e2⟩ <;> rw [e2] at e'
          · cases e'
          · injection e' with e'; subst e'; exact hno' i (by rw [e]; simp [hy])
        · rw [hrp, if_neg d1, if_neg ?_]; exact a2
          intro e'
          rcases firstOf_cases (.tl i) k with ⟨_, e2⟩ | ⟨y, hy, e2⟩ <;> rw [e2] at e'
          · cases e'
          · injection e' with e'; subst e'; exact hno' i (by rw [e]; simp [hy])
    · intro a b x ha hb
      simp only [Q.without, List.mem_filter] at ha hb
      exact h.one a b x ha.1 hb.1
    · intro a; exact (h.once a).sublist List.filter_sublist
    · intro a x hx
      simp only [Q.without, List.mem_filter] at hx
      exact h.known a x hx.1
  · have hno : ∀ i, n ∉ s.q i := fun i hi => hin ⟨i, hi⟩
    obtain ⟨a1, a2⟩ := h.alone n hn hno
    have e1 : ∀ x, (remove m n).next x = m.next x := by
      intro x; rw [remove_next, a1, a2]
      by_cases hx : x = .nd n
      · rw [if_pos hx, hx, a1]
      · rw [if_neg hx, if_neg hx]
    have e2 : ∀ x, (remove m n).prev x = m.prev x := by
      intro x; rw [remove_prev, a1, a2]
      by_cases hx : x = .nd n
      · rw [if_pos hx, hx, a2]
      · rw [if_neg hx, if_neg hx]
    have hq : (s.without n).q = s.q := by
      funext j; simp only [Q.without]; rw [List.filter_eq_self]; intro x hx; simp; rintro rfl; exact hno j hx
    refine ⟨?_, ?_, ?_, ?_, ?_⟩
    · intro i hi; rw [hq]; exact (h.linked i hi).congr (e1 _) (e2 _) (fun x _ => ⟨e1 _, e2 _⟩)
    · intro x hx hno; rw [hq] at hno; rw [e1, e2]; exact h.alone x hx hno
    · rw [hq]; exact h.one
    · rw [hq]; exact h.once
    · rw [hq]; exact h.known

/-- what `push` does to the links after the node was taken out -/
theorem holds_append {m : Mem} {s : Q} {i n : Nat} (h : Holds m s) (hi : i ∈ s.lists) (hn : n ∈ s.nodes) (hno : ∀ j, n ∉ s.q j) :
    Holds ((((m.setNext (m.prev (.tl i)) (.nd n)).setPrev (.nd n) (m.prev (.tl i))).setNext (.nd n) (.tl i)).setPrev (.tl i) (.nd n))
      { s with q := fun j => if j = i then s.q j ++ [n] else s.q j } := by
  have hl := h.linked i hi
  have hlast := hl.last
  rw [hlast]
  generalize hm' : (((m.setNext (lastOf (.hd i) (s.q i)) (.nd n)).setPrev (.nd n) (lastOf (.hd i) (s.q i))).setNext (.nd n) (.tl i)).setPrev (.tl i) (.nd n) = m'
  have hnx : ∀ x, m'.next x = if x = .nd n then .tl i else if x = lastOf (.hd i) (s.q i) then .nd n else m.next x := by
    intro x; rw [← hm']; simp only [Mem.setNext, Mem.setPrev]
  have hpv : ∀ x, m'.prev x = if x = .tl i then .nd n else if x = .nd n then lastOf (.hd i) (s.q i) else m.prev x := by
    intro x; rw [← hm']; simp only [Mem.setNext, Mem.setPrev]
  have hln : lastOf (.hd i) (s.q i) ≠ .nd n := by
    rcases lastOf_cases (.hd i) (s.q i) with ⟨_, e⟩ | ⟨y, hy, e⟩ <;> rw [e] <;> intro e'
    · cases e'
    · injection e' with e'; subst e'; exact hno i hy
  have hother : ∀ j x, j ≠ i → x ∈ s.q j → Addr.nd x ≠ .nd n ∧ Addr.nd x ≠ lastOf (.hd i) (s.q i) := by
    intro j x hj hx
    refine ⟨fun e => hno j (by injection e with e; rw [← e]; exact hx), fun e => ?_⟩
    rcases lastOf_cases (.hd i) (s.q i) with ⟨_, e2⟩ | ⟨y, hy, e2⟩ <;> rw [e2] at e
    · cases e
    · injection e with e; subst e; exact hj (h.one j i _ hx hy)
  refine ⟨?_, ?_, ?_, ?_, ?_⟩
  · intro j hj
    simp only
    by_cases hji : j = i
    · subst hji
      rw [if_pos rfl]
      refine Linked.join (k := []) ?_ ⟨by rw [hnx, if_pos rfl], by rw [hpv, if_pos rfl]⟩
      refine hl.setEnd (h.once j) (by intro _ _ h; cases h) ?_ ?_ ?_ ?_
      · rw [hnx, if_neg hln, if_pos rfl]
      · rw [hpv, if_neg (by intro e; cases e), if_pos rfl]
      · rintro x hx hne
        rw [hnx, if_neg ?_, if_neg hne]
        rintro rfl
        rcases hx with hx | ⟨y, hy, hx⟩
        · cases hx
        · injection hx with hx; subst hx; exact hno _ hy
      · intro x hx
        rw [hpv, if_neg (by intro e; cases e), if_neg (fun e => hno j (by injection e with e; rw [← e]; exact hx))]
    · rw [if_neg hji]
      refine (h.linked j hj).congr ?_ ?_ ?_
      · rw [hnx, if_neg (by intro e; cases e), if_neg ?_]
        intro e
        rcases lastOf_cases (.hd i) (s.q i) with ⟨_, e2⟩ | ⟨y, hy, e2⟩ <;> rw [e2] at e
        · injection e with e; exact hji e
        · cases e
      · rw [hpv, if_neg (fun e => hji (by injection e)), if_neg (by intro e; cases e)]
      · intro x hx
        obtain ⟨d1, d2⟩ := hother j x hji hx
        exact ⟨by rw [hnx, if_neg d1, if_neg d2], by rw [hpv, if_neg (by intro e; cases e), if_neg d1]⟩
  · intro x hx hnx'
    simp only at hnx'
    have hxi := hnx' i
    rw [if_pos rfl] at hxi
    have hxn : Addr.nd x ≠ .nd n := by intro e; injection e with e; subst e; exact hxi (by simp)
    have hx' : ∀ j, x ∉ s.q j := by
      intro j hj
      by_cases hji : j = i
      · subst hji; exact hxi (by simp [hj])
      · have := hnx' j; rw [if_neg hji] at this; exact this hj
    obtain ⟨a1, a2⟩ := h.alone x hx hx'
    refine ⟨?_, by rw [hpv, if_neg (by intro e; cases e), if_neg hxn]; exact a2⟩
    rw [hnx, if_neg hxn, if_neg ?_]; exact a1
    intro e
    rcases lastOf_cases (.hd i) (s.q i) with ⟨_, e2⟩ | ⟨y, hy, e2⟩ <;> rw [e2] at e
    · cases e
    · injection e with e; subst e; exact hx' i hy
  · have key : ∀ a x, x ∈ (if a = i then s.q a ++ [n] else s.q a) → (x = n ∧ a = i) ∨ x ∈ s.q a := by
      intro a x hx
      by_cases ha : a = i
      · rw [if_pos ha] at hx
        rcases List.mem_append.mp hx with hx | hx
        · exact .inr hx
        · exact .inl ⟨List.mem_singleton.mp hx, ha⟩
      · rw [if_neg ha] at hx; exact .inr hx
    intro a b x ha hb
    rcases key a x ha with ⟨e1, e2⟩ | ha <;> rcases key b x hb with ⟨e3, e4⟩ | hb
    · rw [e2, e4]
    · rw [e1] at hb; exact (hno b hb).elim
    · rw [e3] at ha; exact (hno a ha).elim
    · exact h.one a b x ha hb
  · intro a
    simp only
    by_cases ha : a = i
    · rw [if_pos ha, List.nodup_append]
      refine ⟨h.once a, by simp, ?_⟩
      intro x hx y hy e
      rw [List.mem_singleton] at hy
      subst e; subst hy; exact hno a hx
    · rw [if_neg ha]; exact h.once a
  · intro a x hx
    simp only at hx ⊢
    by_cases ha : a = i
    · rw [if_pos ha] at hx
      rcases List.mem_append.mp hx with hx | hx
      · exact h.known a x hx
      · rw [List.mem_singleton] at hx; subst hx; subst ha; exact ⟨hi, hn⟩
    · rw [if_neg ha] at hx; exact h.known a x hx

theorem holds_push {m : Mem} {s : Q} {i n : Nat} (h : Holds m s) (hi : i ∈ s.lists) (hn : n ∈ s.nodes) :
    Holds (pushBack m i n) { s with q := fun j => if j = i then (s.q j).filter (· ≠ n) ++ [n] else (s.q j).filter (· ≠ n) } := by
  have h1 := holds_without h hn
  have h2 := holds_append (i := i) (n := n) h1 hi hn (by intro j hj; simp [Q.without] at hj)
  have e : pushBack m i n = ((((remove m n).setNext ((remove m n).prev (.tl i)) (.nd n)).setPrev (.nd n) ((remove m n).prev (.tl i))).setNext (.nd n) (.tl i)).setPrev (.tl i) (.nd n) := by
    simp only [pushBack, Mem.setNext, Mem.setPrev]
  rw [e]
  exact h2

/-- the sentinel after a queue -/
theorem holds_pop {m : Mem} {s : Q} {i : Nat} (h : Holds m s) (hi : i ∈ s.lists) :
    (s.q i = [] ∧ popFront m i = some (m, none)) ∨ ∃ n l, s.q i = n :: l ∧ popFront m i = some (remove m n, some n) ∧ Holds (remove m n) { s with q := fun j => if j = i then l else s.q j } := by
  have hl := h.linked i hi
  cases hq : s.q i with
  | nil =>
    rw [hq] at hl
    left; refine ⟨rfl, ?_⟩
    unfold popFront; rw [if_pos hl.1]
  | cons n l =>
    rw [hq] at hl
    right
    refine ⟨n, l, rfl, ?_, ?_⟩
    · unfold popFront
      rw [hl.1]
      rw [if_neg (by intro e; cases e)]
    · have hn : n ∈ s.q i := by rw [hq]; simp
      have h1 := holds_without h (h.known i n hn).2
      have hnl : n ∉ l := by have := h.once i; rw [hq] at this; exact (List.nodup_cons.mp this).1
      have : (s.without n) = { s with q := fun j => if j = i then l else s.q j } := by
        simp only [Q.without]
        congr 1
        funext j
        by_cases hj : j = i
        · subst hj
          rw [if_pos rfl, hq, List.filter_cons_of_neg (by simp), List.filter_eq_self]
          intro x hx; simp; rintro rfl; exact hnl hx
        · rw [if_neg hj, List.filter_eq_self]
          intro x hx; simp; rintro rfl; exact hj (h.one j i _ hx hn)
      rw [this] at h1; exact h1

theorem holds_init {m : Mem} {s : Q} {i : Nat} (h : Holds m s) (hi : i ∉ s.lists) : Holds (init m i) { s with lists := i :: s.lists } := by
  have hnx : ∀ x, (init m i).next x = if x = .tl i then .null else if x = .hd i then .tl i else m.next x := by
    intro x; simp only [init, Mem.setNext, Mem.setPrev]
  have hpv : ∀ x, (init m i).prev x = if x = .tl i then .hd i else if x = .hd i then .null else m.prev x := by
    intro x; simp only [init, Mem.setNext, Mem.setPrev]
  have hq : s.q i = [] := by
    cases hq : s.q i with
    | nil => rfl
    | cons n l => exact absurd (h.known i n (by rw [hq]; simp)).1 hi
  refine ⟨?_, ?_, h.one, h.once, fun a x hx => ⟨by simp [(h.known a x hx).1], (h.known a x hx).2⟩⟩
  · intro j hj
    simp only
    by_cases hji : j = i
    · subst hji; rw [hq]
      exact ⟨by rw [hnx, if_neg (by intro e; cases e), if_pos rfl], by rw [hpv, if_pos rfl]⟩
    · have hj : j ∈ s.lists := (List.mem_cons.mp hj).resolve_left hji
      refine (h.linked j hj).congr ?_ ?_ ?_
      · rw [hnx, if_neg (by intro e; cases e), if_neg (fun e => hji (by injection e))]
      · rw [hpv, if_neg (fun e => hji (by injection e)), if_neg (by intro e; cases e)]
      · intro x _
        exact ⟨by rw [hnx, if_neg (by intro e; cases e), if_neg (by intro e; cases e)], by rw [hpv, if_neg (by intro e; cases e), if_neg (by intro e; cases e)]⟩
  · intro x hx hno
    rw [hnx, if_neg (by intro e; cases e), if_neg (by intro e; cases e), hpv, if_neg (by intro e; cases e), if_neg (by intro e; cases e)]
    exact h.alone x hx hno

theorem holds_node {m : Mem} {s : Q} {n : Nat} (h : Holds m s) (hn : n ∉ s.nodes) : Holds (nodeInit m n) { s with nodes := n :: s.nodes } := by
  have hnx : ∀ x, (nodeInit m n).next x = if x = .nd n then .nd n else m.next x := by
    intro x; simp only [nodeInit, Mem.setNext, Mem.setPrev]
  have hpv : ∀ x, (nodeInit m n).prev x = if x = .nd n then .nd n else m.prev x := by
    intro x; simp only [nodeInit, Mem.setNext, Mem.setPrev]
  refine ⟨?_, ?_, h.one, h.once, fun a x hx => ⟨(h.known a x hx).1, by simp [(h.known a x hx).2]⟩⟩
  · intro j hj
    refine (h.linked j hj).congr ?_ ?_ ?_
    · rw [hnx, if_neg (by intro e; cases e)]
    · rw [hpv, if_neg (by intro e; cases e)]
    · intro x hx
      have : Addr.nd x ≠ .nd n := by intro e; injection e with e; subst e; exact hn (h.known j x hx).2
      exact ⟨by rw [hnx, if_neg this], by rw [hpv, if_neg this]⟩
  · intro x hx hno
    by_cases hxn : x = n
    · subst hxn; exact ⟨by rw [hnx, if_pos rfl], by rw [hpv, if_pos rfl]⟩
    · have : Addr.nd x ≠ .nd n := by intro e; injection e with e; exact hxn e
      have hx : x ∈ s.nodes := (List.mem_cons.mp hx).resolve_left hxn
      rw [hnx, if_neg this, hpv, if_neg this]
      exact h.alone x hx hno

theorem holds_step {m : Mem} {s s' : Q} {o : Op} {r : Out} (h : Holds m s) (hs : s.step o = some (s', r)) : ∃ m', step m o = some (m', r) ∧ Holds m' s' := by
  cases o with
  | init i =>
    simp only [Q.step] at hs
    split at hs
    · cases hs
    · rename_i hi; cases hs; exact ⟨_, rfl, holds_init h hi⟩
  | node n =>
    simp only [Q.step] at hs
    split at hs
    · cases hs
    · rename_i hi; cases hs; exact ⟨_, rfl, holds_node h hi⟩
  | remove n =>
    simp only [Q.step] at hs
    split at hs
    · rename_i hi; cases hs; exact ⟨_, rfl, holds_without h hi⟩
    · cases hs
  | push i n =>
    simp only [Q.step] at hs
    split at hs
    · rename_i hi; cases hs; exact ⟨_, rfl, holds_push h hi.1 hi.2⟩
    · cases hs
  | pop i =>
    simp only [Q.step] at hs
    split at hs
    · rename_i hi
      rcases holds_pop h hi with ⟨e, hp⟩ | ⟨n, l, e, hp, hh⟩
      · rw [e] at hs; simp only at hs; cases hs
        exact ⟨m, by simp [step, hp], h⟩
      · rw [e] at hs; simp only at hs; cases hs
        exact ⟨_, by simp [step, hp], hh⟩
    · cases hs
  | empty i =>
    simp only [Q.step] at hs
    split at hs
    · rename_i hi
      cases hs
      refine ⟨m, ?_, h⟩
      have hl := h.linked i hi
      simp only [step, isEmpty]
      cases hq : s.q i with
      | nil => rw [hq] at hl; simp [hl.1]
      | cons n l => rw [hq] at hl; simp [hl.1]
    · cases hs

end Neco.Colist
