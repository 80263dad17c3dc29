import Verif.Spec.Conc
import Verif.Proof.Colist
/-!
# Interleaved operations on disjoint queues
-/
namespace Neco.Conc
open Neco.Colist

/-- the places that belong to some queues -/
def fp (q : Q) : Addr → Prop
  | .hd i | .tl i => i ∈ q.lists
  | .nd n => n ∈ q.nodes
  | .null => False

/-- two memories that agree on some places -/
def Agree (F : Addr → Prop) (m m' : Mem) : Prop := ∀ a, F a → m'.prev a = m.prev a ∧ m'.next a = m.next a

/-- run to the end alone -/
def fin (m : Mem) (g : Regs) : List Ins → Mem × Regs
  | [] => (m, g)
  | c :: l => if (exec m g c).2.2 = true then ((exec m g c).1, (exec m g c).2.1) else fin (exec m g c).1 (exec m g c).2.1 l

/-- and touch only these places -/
def Safe (F : Addr → Prop) (m : Mem) (g : Regs) : List Ins → Prop
  | [] => True
  | c :: l => (∀ a, c.at g = some a → F a) ∧ ((exec m g c).2.2 = false → Safe F (exec m g c).1 (exec m g c).2.1 l)

theorem exec_other {m : Mem} {g : Regs} {c : Ins} {x : Addr} (h : c.at g ≠ some x) : (exec m g c).1.prev x = m.prev x ∧ (exec m g c).1.next x = m.next x := by
  cases c <;> simp only [Ins.at, ne_eq, Option.some.injEq] at h <;> simp [exec, Mem.setPrev, Mem.setNext]
  · intro e; exact absurd e.symm h
  · intro e; exact absurd e.symm h

theorem exec_agree {F : Addr → Prop} {m m' : Mem} {g : Regs} {c : Ins} (h : Agree F m m') (hs : ∀ a, c.at g = some a → F a) :
    Agree F (exec m g c).1 (exec m' g c).1 ∧ (exec m' g c).2 = (exec m g c).2 := by
  cases c <;> simp only [Ins.at, Option.some.injEq, forall_eq'] at hs <;> simp only [exec]
  case ldP => exact ⟨h, by rw [(h _ hs).1]⟩
  case ldN => exact ⟨h, by rw [(h _ hs).2]⟩
  case stP a v =>
    refine ⟨fun x hx => ⟨?_, (h x hx).2⟩, trivial⟩
    simp only [Mem.setPrev]; split
    · rfl
    · exact (h x hx).1
  case stN a v =>
    refine ⟨fun x hx => ⟨(h x hx).1, ?_⟩, trivial⟩
    simp only [Mem.setNext]; split
    · rfl
    · exact (h x hx).2
  case br => exact ⟨h, trivial⟩

theorem fin_agree {F : Addr → Prop} : ∀ {l : List Ins} {m m' : Mem} {g : Regs}, Agree F m m' → Safe F m g l →
    Safe F m' g l ∧ Agree F (fin m g l).1 (fin m' g l).1 ∧ (fin m' g l).2 = (fin m g l).2
  | [], _, _, _, h, _ => ⟨trivial, h, rfl⟩
  | c :: l, m, m', g, h, hs => by
    obtain ⟨h1, h2⟩ := hs
    obtain ⟨e1, e2⟩ := exec_agree h h1
    have e3 : (exec m' g c).2.2 = (exec m g c).2.2 := by rw [e2]
    have e4 : (exec m' g c).2.1 = (exec m g c).2.1 := by rw [e2]
    cases hb : (exec m g c).2.2 with
    | true =>
      refine ⟨⟨h1, fun h => by rw [e3, hb] at h; cases h⟩, ?_⟩
      unfold fin; rw [e3, hb, if_pos rfl, if_pos rfl]
      exact ⟨e1, e4⟩
    | false =>
      have ih := fin_agree e1 (h2 hb)
      refine ⟨⟨h1, fun _ => by rw [e4]; exact ih.1⟩, ?_⟩
      unfold fin; rw [e3, hb, if_neg (by simp), if_neg (by simp), e4]
      exact ih.2

/-- straight-line code -/
def Straight (l : List Ins) : Prop := ∀ c ∈ l, ∀ k a, c ≠ .br k a

theorem exec_straight {m : Mem} {g : Regs} {c : Ins} (h : ∀ k a, c ≠ .br k a) : (exec m g c).2.2 = false := by
  cases c <;> first | rfl | exact absurd rfl (h _ _)

theorem fin_app {k : List Ins} : ∀ {l : List Ins} {m : Mem} {g : Regs}, Straight l → fin m g (l ++ k) = fin (fin m g l).1 (fin m g l).2 k
  | [], _, _, _ => rfl
  | c :: l, m, g, h => by
    have hb := exec_straight (m := m) (g := g) (h c (.head _))
    rw [List.cons_append, fin, fin, hb, if_neg (by simp), if_neg (by simp)]
    exact fin_app fun c hc => h c (.tail _ hc)

theorem safe_app {F : Addr → Prop} {k : List Ins} : ∀ {l : List Ins} {m : Mem} {g : Regs}, Straight l → Safe F m g l → Safe F (fin m g l).1 (fin m g l).2 k → Safe F m g (l ++ k)
  | [], _, _, _, _, h => h
  | c :: l, m, g, h, h1, h2 => by
    have hb := exec_straight (m := m) (g := g) (h c (.head _))
    rw [fin, hb, if_neg (by simp)] at h2
    exact ⟨h1.1, fun _ => safe_app (fun c hc => h c (.tail _ hc)) (h1.2 hb) h2⟩

/-! ## Locality of the queues -/

theorem holds_agree {m m' : Mem} {q : Q} (h : Holds m q) (ha : Agree (fp q) m m') : Holds m' q := by
  refine ⟨?_, ?_, h.one, h.once, h.known⟩
  · intro i hi
    exact (h.linked i hi).congr (ha (.hd i) hi).2 (ha (.tl i) hi).1 fun n hn => ⟨(ha (.nd n) (h.known i n hn).2).2, (ha (.nd n) (h.known i n hn).2).1⟩
  · intro n hn hno
    rw [(ha (.nd n) hn).2, (ha (.nd n) hn).1]; exact h.alone n hn hno

theorem fp_last {m : Mem} {q : Q} (h : Holds m q) {i : Nat} (hi : i ∈ q.lists) {l : List Nat} (hl : ∀ n ∈ l, n ∈ q.q i) : fp q (lastOf (.hd i) l) := by
  rcases lastOf_cases (.hd i) l with ⟨_, e⟩ | ⟨n, hn, e⟩ <;> rw [e]
  · exact hi
  · exact (h.known i n (hl n hn)).2
theorem fp_first {m : Mem} {q : Q} (h : Holds m q) {i : Nat} (hi : i ∈ q.lists) {l : List Nat} (hl : ∀ n ∈ l, n ∈ q.q i) : fp q (firstOf (.tl i) l) := by
  rcases firstOf_cases (.tl i) l with ⟨_, e⟩ | ⟨n, hn, e⟩ <;> rw [e]
  · exact hi
  · exact (h.known i n (hl n hn)).2

theorem fp_nd {m : Mem} {q : Q} (h : Holds m q) {n : Nat} (hn : n ∈ q.nodes) : fp q (m.prev (.nd n)) ∧ fp q (m.next (.nd n)) := by
  by_cases hin : ∃ i, n ∈ q.q i
  · obtain ⟨i, hi⟩ := hin
    have hk := (h.known i n hi).1
    have hl := h.linked i hk
    obtain ⟨l, k, e⟩ := List.append_of_mem hi
    rw [e] at hl
    obtain ⟨a, b⟩ := hl.split
    rw [a.last, b.first]
    exact ⟨fp_last h hk fun x hx => by rw [e]; simp [hx], fp_first h hk fun x hx => by rw [e]; simp [hx]⟩
  · obtain ⟨a, b⟩ := h.alone n hn fun i hi => hin ⟨i, hi⟩
    rw [a, b]; exact ⟨hn, hn⟩

theorem fp_tl {m : Mem} {q : Q} (h : Holds m q) {i : Nat} (hi : i ∈ q.lists) : fp q (m.prev (.tl i)) := by
  rw [(h.linked i hi).last]; exact fp_last h hi fun _ h => h

/-! ## The operations, run alone -/

theorem rm_straight (x : Arg) : Straight (rmCode x) := by
  intro c hc k a e; subst e; simp [rmCode] at hc

theorem fin_rm (m : Mem) (g : Regs) (n : Nat) : (fin m g (rmCode (.c (.nd n)))).1 = remove m n := rfl

theorem fin_rm2 (m : Mem) (g : Regs) (n : Nat) (h : g 2 = .nd n) : (fin m g (rmCode (.r 2))).1 = remove m n ∧ (fin m g (rmCode (.r 2))).2 2 = .nd n := by
  simp [fin, rmCode, exec, setR, Arg.val, h, remove]

theorem safe_rm {m : Mem} {q : Q} (h : Holds m q) {n : Nat} (hn : n ∈ q.nodes) (g : Regs) : Safe (fp q) m g (rmCode (.c (.nd n))) := by
  obtain ⟨a, b⟩ := fp_nd h hn
  have hn' : fp q (.nd n) := hn
  have e : (m.setNext (m.prev (.nd n)) (m.next (.nd n))).next (.nd n) = m.next (.nd n) := by simp [Mem.setNext]
  simp [Safe, rmCode, exec, Ins.at, Arg.val, setR, hn', a, b, e]

theorem safe_rm2 {m : Mem} {q : Q} (h : Holds m q) {n : Nat} (hn : n ∈ q.nodes) (g : Regs) (hg : g 2 = .nd n) : Safe (fp q) m g (rmCode (.r 2)) := by
  obtain ⟨a, b⟩ := fp_nd h hn
  have hn' : fp q (.nd n) := hn
  have e : (m.setNext (m.prev (.nd n)) (m.next (.nd n))).next (.nd n) = m.next (.nd n) := by simp [Mem.setNext]
  simp [Safe, rmCode, exec, Ins.at, Arg.val, setR, hn', a, b, e, hg]

theorem fin_push (m : Mem) (g : Regs) (i n : Nat) : (fin m g (code (.push i n))).1 = pushBack m i n := rfl

theorem safe_app' {m : Mem} {q : Q} {i n : Nat} (h : Holds m q) (hi : i ∈ q.lists) (hn : n ∈ q.nodes) (g : Regs) : Safe (fp q) m g (appCode i n) := by
  have a := fp_tl h hi
  have hn' : fp q (.nd n) := hn
  have hi' : fp q (.tl i) := hi
  simp [Safe, appCode, exec, Ins.at, Arg.val, setR, hn', hi', a]

/-- the operations modelled here -/
def micro : Op → Bool
  | .remove _ | .push _ _ | .pop _ | .empty _ => true
  | _ => false

theorem op_run {m : Mem} {q q' : Q} {o : Op} {r : Out} (hm : micro o = true) (h : Holds m q) (hs : q.step o = some (q', r)) (g : Regs) :
    Safe (fp q) m g (code o) ∧ Holds (fin m g (code o)).1 q' ∧ result (fin m g (code o)).2 o = r ∧ q'.lists = q.lists ∧ q'.nodes = q.nodes := by
  cases o with
  | init i => cases hm
  | node n => cases hm
  | remove n =>
    simp only [Q.step] at hs
    split at hs <;> cases hs
    next hn =>
    exact ⟨safe_rm h hn g, by rw [code, fin_rm]; exact holds_without h hn, rfl, rfl, rfl⟩
  | push i n =>
    have hs' := hs
    simp only [Q.step] at hs
    split at hs <;> cases hs
    next hn =>
    refine ⟨?_, ?_, rfl, rfl, rfl⟩
    · refine safe_app (rm_straight _) (safe_rm h hn.2 g) ?_
      rw [fin_rm]
      exact safe_app' (holds_without h hn.2) hn.1 hn.2 _
    · obtain ⟨m', e1, e2⟩ := holds_step h hs'
      simp only [Colist.step, Option.some.injEq, Prod.mk.injEq] at e1
      obtain ⟨rfl, _⟩ := e1
      rw [fin_push]; exact e2
  | pop i =>
    simp only [Q.step] at hs
    split at hs
    case isFalse => cases hs
    next hi =>
    have hl := h.linked i hi
    have hh : fp q (.hd i) := hi
    cases hq : q.q i with
    | nil =>
      rw [hq] at hs hl; cases hs
      have e : m.next (.hd i) = .tl i := hl.1
      refine ⟨?_, ?_, ?_, rfl, rfl⟩
      · simp [Safe, code, popCode, exec, Ins.at, Arg.val, setR, hh, e]
      · simp [fin, code, popCode, exec, Arg.val, setR, e]; exact h
      · simp [fin, code, popCode, exec, Arg.val, setR, e, result]
    | cons n l =>
      rw [hq] at hs hl; simp only [Option.some.injEq, Prod.mk.injEq] at hs
      obtain ⟨rfl, rfl⟩ := hs
      have e : m.next (.hd i) = .nd n := hl.1
      have hn : n ∈ q.nodes := (h.known i n (by rw [hq]; simp)).2
      have eg : (setR g 2 (m.next (.hd i))) 2 = .nd n := by simp [setR, e]
      have e1 : fin m g (code (.pop i)) = fin m (setR g 2 (m.next (.hd i))) (rmCode (.r 2)) := by
        simp [fin, code, popCode, exec, Arg.val, setR, e]
      refine ⟨?_, ?_, ?_, rfl, rfl⟩
      · have := safe_rm2 h hn _ eg
        simp only [Safe, code, popCode, List.cons_append, List.nil_append, exec, Ins.at, Arg.val, Option.some.injEq, forall_eq']
        exact ⟨hh, fun _ => ⟨by simp, fun _ => this⟩⟩
      · rw [e1, (fin_rm2 _ _ n eg).1]
        have hw := holds_without h hn
        have : q.without n = { q with q := fun j => if j = i then l else q.q j } := by
          unfold Q.without; congr 1
          funext j
          have ho := h.once i; rw [hq] at ho
          split
          · next ej =>
            subst ej; rw [hq]
            have := (List.nodup_cons.1 ho).1
            rw [List.filter_cons, if_neg (by simp), List.filter_eq_self]
            intro x hx; simp; rintro rfl; exact this hx
          · next ej =>
            rw [List.filter_eq_self]
            intro x hx; simp; rintro rfl; exact ej (h.one j i _ hx (by rw [hq]; simp))
        rw [← this]; exact hw
      · rw [e1, result, (fin_rm2 _ _ n eg).2]; simp [Addr.node]
  | empty i =>
    simp only [Q.step] at hs
    split at hs <;> cases hs
    next hi =>
    have hh : fp q (.hd i) := hi
    refine ⟨by simp [Safe, code, exec, Ins.at, Arg.val, hh], by simp [fin, code, exec]; exact h, ?_, rfl, rfl⟩
    have := (h.linked i hi).first
    cases hq : q.q i with
    | nil => rw [hq] at this; simp [fin, code, exec, Arg.val, setR, result, this, firstOf]
    | cons n l => rw [hq] at this; simp [fin, code, exec, Arg.val, setR, result, this, firstOf]

end Neco.Conc
