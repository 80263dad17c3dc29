import Verif.Proof.Colist

/-! # C52: waiting queues are proper queues -/

namespace Neco.Colist

theorem holds_run : ∀ (l : List Op) {m : Mem} {s s' : Q} {r : List Out}, Holds m s → s.run l = some (s', r) → ∃ m', run m l = some (m', r) ∧ Holds m' s'
  | [], m, s, s', r, h, hs => by simp only [Q.run, Option.some.injEq, Prod.mk.injEq] at hs; obtain ⟨rfl, rfl⟩ := hs; exact ⟨m, rfl, h⟩
  | o :: l, m, s, s', r, h, hs => by
    unfold Q.run at hs
    split at hs
    · cases hs
    · rename_i s1 r1 e1
      obtain ⟨m1, h1, h2⟩ := holds_step h e1
      simp only [Option.map_eq_some_iff] at hs
      obtain ⟨⟨a, b⟩, e2, e3⟩ := hs
      simp only [Prod.mk.injEq] at e3
      obtain ⟨rfl, rfl⟩ := e3
      obtain ⟨m', h3, h4⟩ := holds_run l h2 e2
      exact ⟨m', by simp [run, h1, h3], h4⟩

/-- **C52** whatever the memory contains at first, every sequence of operations on queues and nodes that were made before they are used behaves like the operations on lists:
it is defined, returns the same, and the memory afterwards holds exactly the lists -/
theorem C52_queues (m : Mem) (l : List Op) {s : Q} {r : List Out} (h : ({} : Q).run l = some (s, r)) : ∃ m', run m l = some (m', r) ∧ Holds m' s :=
  holds_run l ⟨by simp, by simp, by simp, by simp, by simp⟩ h

/-- **C52** the single operations, from any memory that holds queues -/
theorem C52_step {m : Mem} {s s' : Q} {o : Op} {r : Out} (h : Holds m s) (hs : s.step o = some (s', r)) : ∃ m', step m o = some (m', r) ∧ Holds m' s' := holds_step h hs

/-- **C52** the memory determines the queues: there is only one reading of it -/
theorem C52_determined {m : Mem} {s t : Q} (hs : Holds m s) (ht : Holds m t) {i : Nat} (h1 : i ∈ s.lists) (h2 : i ∈ t.lists) : s.q i = t.q i := by
  have key : ∀ (l k : List Nat) (a : Addr) (i : Nat), Linked m a l (.tl i) → Linked m a k (.tl i) → l = k := by
    intro l
    induction l with
    | nil =>
      intro k a i hl hk
      cases k with
      | nil => rfl
      | cons n k => have := hl.1.symm.trans hk.1; cases this
    | cons n l ih =>
      intro k a i hl hk
      cases k with
      | nil => have := hl.1.symm.trans hk.1; cases this
      | cons n' k =>
        have := hl.1.symm.trans hk.1
        injection this with this; subst this
        rw [ih k _ i hl.2.2 hk.2.2]
  exact key _ _ _ i (hs.linked i h1) (ht.linked i h2)

/-- two queues and three nodes; a node moves from one queue to the other, and one is taken out of the middle -/
def exOps : List Op := [.init 0, .init 1, .node 5, .node 6, .node 7, .push 0 5, .push 0 6, .push 0 7, .push 1 5, .remove 7, .push 0 5, .empty 1, .pop 0]
example : ∃ s r, ({} : Q).run exOps = some (s, r) ∧ s.q 0 = [5] ∧ s.q 1 = [] ∧ r.drop 11 = [.bool true, .popped (some 6)] := ⟨_, _, rfl, rfl, rfl, rfl⟩
/-- memory that holds such queues -/
example : ∃ (m : Mem) (s : Q), Holds m s ∧ s.q 0 = [6, 5] ∧ s.step (.pop 0) ≠ none := by
  obtain ⟨m', _, h⟩ := C52_queues ⟨fun _ => .null, fun _ => .null⟩ (exOps.take 12) (s := _) (r := _) rfl
  exact ⟨m', _, h, rfl, by intro e; cases e⟩

end Neco.Colist
