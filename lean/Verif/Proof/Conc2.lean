import Verif.Proof.Conc
/-!
# The invariant of the interleaved machine
-/
namespace Neco.Conc
open Neco.Colist

/-- an operation in progress on queues `q`: run to the end alone, it would do what it should -/
structure Prog (q : Q) (m : Mem) (r : Run) : Prop where
  mic : micro r.op = true
  once : ∀ i, (q.q i).Nodup
  known : ∀ i n, n ∈ q.q i → i ∈ q.lists ∧ n ∈ q.nodes
  safe : Safe (fp q) m r.regs r.code
  fin : ∃ q' x, q.step r.op = some (q', x) ∧ Holds (fin m r.regs r.code).1 q' ∧ result (Conc.fin m r.regs r.code).2 r.op = x ∧ q'.lists = q.lists ∧ q'.nodes = q.nodes

theorem fp_eq {q q' : Q} (h1 : q'.lists = q.lists) (h2 : q'.nodes = q.nodes) : fp q' = fp q := by
  funext a; cases a <;> simp [fp, h1, h2]

theorem Prog.start {q : Q} {m : Mem} {o : Op} (hm : micro o = true) (h : Holds m q) (hs : q.step o ≠ none) : Prog q m (.start o) := by
  cases he : q.step o with
  | none => exact absurd he hs
  | some p =>
    obtain ⟨h1, h2, h3, h4, h5⟩ := op_run (q' := p.1) (r := p.2) hm h he (fun _ => .null)
    exact ⟨hm, h.once, h.known, h1, p.1, p.2, he, h2, h3, h4, h5⟩

/-- steps of others do not matter -/
theorem Prog.other {q : Q} {m m' : Mem} {r : Run} (h : Prog q m r) (ha : Agree (fp q) m m') : Prog q m' r := by
  obtain ⟨hm, ho, hk, hs, q', x, h1, h2, h3, h4, h5⟩ := h
  obtain ⟨a, b, c⟩ := fin_agree ha hs
  refine ⟨hm, ho, hk, a, q', x, h1, holds_agree h2 ?_, by rw [c]; exact h3, h4, h5⟩
  rw [fp_eq h4 h5]; exact b

/-- a step of its own -/
theorem Prog.tick {q : Q} {m : Mem} {r : Run} (h : Prog q m r) : Prog q (tick m r).1 (tick m r).2 := by
  obtain ⟨hm, ho, hk, hs, q', x, h1, h2, h3, h4, h5⟩ := h
  unfold Conc.tick
  cases hc : r.code with
  | nil => exact ⟨hm, ho, hk, hs, q', x, h1, h2, h3, h4, h5⟩
  | cons c l =>
    rw [hc] at hs h2 h3
    rw [Conc.fin] at h2 h3
    dsimp only
    cases hb : (exec m r.regs c).2.2 with
    | true =>
      rw [hb, if_pos rfl] at h2 h3
      exact ⟨hm, ho, hk, trivial, q', x, h1, h2, h3, h4, h5⟩
    | false =>
      rw [hb, if_neg (by simp)] at h2 h3
      exact ⟨hm, ho, hk, hs.2 hb, q', x, h1, h2, h3, h4, h5⟩

/-- a step touches only its own places -/
theorem Prog.place {q : Q} {m : Mem} {r : Run} (h : Prog q m r) {x : Addr} (hx : ¬ fp q x) : (Conc.tick m r).1.prev x = m.prev x ∧ (Conc.tick m r).1.next x = m.next x := by
  unfold Conc.tick
  cases hc : r.code with
  | nil => exact ⟨rfl, rfl⟩
  | cons c l =>
    have hs := h.safe
    rw [hc] at hs
    exact exec_other fun e => hx (hs.1 x e)

theorem Prog.next {q : Q} {m : Mem} {r : Run} (h : Prog q m r) {a : Addr} {b : Bool} (hn : r.next = some (a, b)) : fp q a := by
  unfold Run.next at hn
  split at hn
  · cases hn
  · next c l hc =>
    have hs := h.safe
    rw [hc] at hs
    cases he : c.at r.regs with
    | none => rw [he] at hn; cases hn
    | some a' => rw [he] at hn; cases hn; exact hs.1 a he

theorem Prog.done {q : Q} {m : Mem} {r : Run} (h : Prog q m r) (hc : r.code = []) :
    Holds m (after q r.op).1 ∧ result r.regs r.op = (after q r.op).2 ∧ (after q r.op).1.lists = q.lists ∧ (after q r.op).1.nodes = q.nodes ∧ q.step r.op = some (after q r.op) := by
  obtain ⟨hm, ho, hk, hs, q', x, h1, h2, h3, h4, h5⟩ := h
  rw [hc] at h2 h3
  unfold after; rw [h1]
  exact ⟨h2, h3, h4, h5, rfl⟩

/-- everything is in order -/
structure Inv (s : S) : Prop where
  mq : s.mop = none → Holds s.mem s.own
  mr : ∀ r, s.mop = some r → Prog s.own s.mem r
  cq : s.crit = none → Holds s.mem s.io
  cr : ∀ w r, s.crit = some (w, r) → Prog s.io s.mem r
  cw : ∀ n r, s.crit = some (some n, r) → r.op = .push 0 n
  cm : ∀ r, s.crit = some (none, r) → r.op = .pop 0 ∧ s.mop = none
  tk : ∀ n ∈ s.tasks, (s.mem.next (.nd n) = .nd n ∧ s.mem.prev (.nd n) = .nd n) ∧ n ∉ s.own.nodes ∧ n ∉ s.io.nodes
  nd : s.tasks.Nodup
  iol : s.io.lists = [0]
  ownl : 0 ∉ s.own.lists
  disj : ∀ n ∈ s.own.nodes, n ∉ s.io.nodes
  log : s.log = s.spec

theorem Inv.apart {s : S} (h : Inv s) {a : Addr} (h1 : fp s.own a) (h2 : fp s.io a) : False := by
  cases a with
  | hd i => simp only [fp] at h1 h2; rw [h.iol] at h2; simp at h2; subst h2; exact h.ownl h1
  | tl i => simp only [fp] at h1 h2; rw [h.iol] at h2; simp at h2; subst h2; exact h.ownl h1
  | nd n => exact h.disj n h1 h2
  | null => exact h1

theorem holds_drop {m : Mem} {q : Q} (h : Holds m q) {n : Nat} (hn : ∀ i, n ∉ q.q i) : Holds m (drop q n) := by
  refine ⟨h.linked, ?_, h.one, h.once, ?_⟩
  · intro k hk; exact h.alone k (List.mem_filter.1 hk).1
  · intro i k hk
    refine ⟨(h.known i k hk).1, List.mem_filter.2 ⟨(h.known i k hk).2, ?_⟩⟩
    simp; rintro rfl; exact hn i hk

theorem holds_add {m : Mem} {q : Q} (h : Holds m q) {n : Nat} (hn : m.next (.nd n) = .nd n ∧ m.prev (.nd n) = .nd n) : Holds m (add q n) := by
  refine ⟨h.linked, ?_, h.one, h.once, ?_⟩
  · intro k hk hno
    rcases List.mem_cons.1 hk with rfl | hk
    · exact hn
    · exact h.alone k hk hno
  · intro i k hk; exact ⟨(h.known i k hk).1, .tail _ (h.known i k hk).2⟩

theorem mainFree_iff {s : S} (h : mainFree s = true) : s.mop = none ∧ ∀ r, s.crit ≠ some (none, r) := by
  unfold mainFree at h
  rw [Bool.and_eq_true] at h
  refine ⟨by simpa using h.1, fun r hr => ?_⟩
  have := h.2; rw [hr] at this; cases this

theorem inv_step {s s' : S} {a : Act} (h : Inv s) (hok : Rules s a) (hs : step s a = some s') : Inv s' := by
  have ap := @Inv.apart s h
  obtain ⟨mq, mr, cq, cr, cw, cm, tk, nd, iol, ownl, disj, log⟩ := h
  cases a with
  | begin o =>
    simp only [step] at hs
    split at hs <;> cases hs
    next hg =>
    obtain ⟨g1, g2⟩ := mainFree_iff hg.1
    have hmic : micro o = true := by have := hg.2; cases o <;> simp [foreign, micro] at *
    refine ⟨by simp, ?_, cq, cr, cw, fun r hr => absurd hr (g2 r), tk, nd, iol, ownl, disj, log⟩
    intro r hr; cases hr
    exact .start hmic (mq g1) hok
  | main =>
    simp only [step] at hs
    split at hs
    · cases hs
    next r hr =>
    have hP := mr r hr
    split at hs <;> cases hs
    · next hc =>
      obtain ⟨d1, d2, d3, d4, d5⟩ := hP.done hc
      refine ⟨fun _ => d1, by simp, cq, cr, cw, fun r h => ⟨(cm r h).1, rfl⟩, ?_, nd, iol, ?_, ?_, ?_⟩
      · intro n hn; dsimp only; rw [d4]; exact tk n hn
      · dsimp only; rw [d3]; exact ownl
      · intro n hn; dsimp only at hn; rw [d4] at hn; exact disj n hn
      · dsimp only; rw [d2, log]
    · next hc =>
      refine ⟨by simp, ?_, ?_, ?_, cw, ?_, ?_, nd, iol, ownl, disj, log⟩
      · intro r' hr'; cases hr'; exact hP.tick
      · intro hcr
        exact holds_agree (cq hcr) fun a ha => hP.place fun h => ap h ha
      · intro w k hk
        exact (cr w k hk).other fun a ha => hP.place fun h => ap h ha
      · intro k hk; have := (cm k hk).2; rw [hr] at this; cases this
      · intro n hn
        obtain ⟨t1, t2, t3⟩ := tk n hn
        have := hP.place (x := .nd n) t2
        exact ⟨by dsimp only; rw [this.1, this.2]; exact t1, t2, t3⟩
  | submit n =>
    simp only [step] at hs
    split at hs <;> cases hs
    next hg =>
    obtain ⟨g1, g2⟩ := mainFree_iff hg
    obtain ⟨o1, o2⟩ := hok
    have hH := mq g1
    refine ⟨fun _ => holds_drop hH o2, (fun r hr => by dsimp only at hr; rw [g1] at hr; cases hr), cq, cr, cw, fun r hr => absurd hr (g2 r), ?_, ?_, iol, ownl, ?_, log⟩
    · intro k hk
      rcases List.mem_cons.1 hk with rfl | hk
      · exact ⟨hH.alone _ o1 o2, by simp [drop], disj _ o1⟩
      · obtain ⟨t1, t2, t3⟩ := tk k hk
        exact ⟨t1, fun h => t2 (List.mem_filter.1 h).1, t3⟩
    · exact List.nodup_cons.2 ⟨fun hn => (tk n hn).2.1 o1, nd⟩
    · intro k hk; exact disj k (List.mem_filter.1 hk).1
  | done n =>
    simp only [step] at hs
    split at hs <;> cases hs
    next hg =>
    have hc : s.crit = none := by simpa using hg.1
    obtain ⟨t1, t2, t3⟩ := tk n hg.2
    refine ⟨mq, mr, by simp, ?_, ?_, by simp, ?_, nd.erase _, iol, ownl, ?_, log⟩
    · intro w r hr; cases hr
      refine .start rfl (holds_add (cq hc) t1) ?_
      simp only [Q.step]
      rw [if_pos ⟨by simp [add, iol], by simp [add]⟩]; simp
    · intro k r hr; cases hr; rfl
    · intro k hk
      have hk' := List.mem_of_mem_erase hk
      obtain ⟨u1, u2, u3⟩ := tk k hk'
      refine ⟨u1, u2, ?_⟩
      intro h
      rcases List.mem_cons.1 h with rfl | h
      · exact (List.Nodup.not_mem_erase nd) hk
      · exact u3 h
    · intro k hk h
      rcases List.mem_cons.1 h with rfl | h
      · exact t2 hk
      · exact disj k hk h
  | take =>
    simp only [step] at hs
    split at hs <;> cases hs
    next hg =>
    have hc : s.crit = none := by simpa using hg.1
    have hm : s.mop = none := by simpa using hg.2
    refine ⟨mq, mr, by simp, ?_, by simp, ?_, tk, nd, iol, ownl, disj, log⟩
    · intro w r hr; cases hr
      refine .start rfl (cq hc) ?_
      simp only [Q.step]
      rw [if_pos (by rw [iol]; simp)]
      cases s.io.q 0 <;> simp
    · intro r hr; cases hr; exact ⟨rfl, hm⟩
  | crit =>
    simp only [step] at hs
    split at hs
    · cases hs
    next w r hr =>
    have hP := cr w r hr
    split at hs
    · next hc =>
      obtain ⟨d1, d2, d3, d4, d5⟩ := hP.done hc
      have base : Inv { s with crit := none, log := (r.op, result r.regs r.op) :: s.log, io := (after s.io r.op).1, spec := (r.op, (after s.io r.op).2) :: s.spec } := by
        refine ⟨mq, mr, fun _ => d1, by simp, by simp, by simp, ?_, nd, by dsimp only; rw [d3]; exact iol, ownl, ?_, ?_⟩
        · intro n hn; dsimp only; rw [d4]; exact tk n hn
        · intro n hn; dsimp only; rw [d4]; exact disj n hn
        · dsimp only; rw [d2, log]
      split at hs <;> cases hs
      · next n hp =>
        -- one was taken off: it belongs to the thread of the runtime again
        have hop : w = none := by
          cases w with
          | none => rfl
          | some k =>
            have := cw k r hr
            rw [this] at hp d5
            simp only [Q.step] at d5
            split at d5
            · simp only [Option.some.injEq] at d5
              rw [← d5] at hp; cases hp
            · cases d5
        subst hop
        obtain ⟨e1, e2⟩ := cm r hr
        rw [e1] at d5 hp d1 d3 d4
        simp only [Q.step] at d5
        rw [if_pos (by rw [iol]; simp)] at d5
        cases hq : s.io.q 0 with
        | nil => rw [hq] at d5; simp only [Option.some.injEq] at d5; rw [← d5] at hp; cases hp
        | cons k l =>
          rw [hq] at d5; simp only [Option.some.injEq] at d5
          rw [← d5] at hp; simp only [Out.popped.injEq, Option.some.injEq] at hp
          subst hp
          rw [e1]
          have hno : ∀ i, k ∉ (after s.io (.pop 0)).1.q i := by
            intro i hi
            have hI : ∀ j, (after s.io (.pop 0)).1.q j = if j = 0 then l else s.io.q j := fun j => by rw [← d5]
            have hkn := d1.known i k hi
            rw [d3, iol] at hkn
            have hi0 : i = 0 := by simpa using hkn.1
            subst hi0
            have hnd : (s.io.q 0).Nodup := hP.once 0
            rw [hI, if_pos rfl] at hi
            rw [hq] at hnd
            exact (List.nodup_cons.1 hnd).1 hi
          have hkm : k ∈ s.io.nodes := (hP.known 0 k (by rw [hq]; exact .head _)).2
          have hal := d1.alone k (by rw [d4]; exact hkm) hno
          have hnown : k ∉ s.own.nodes := fun h => disj k h hkm
          refine ⟨fun _ => holds_add (mq e2) hal, ?_, fun _ => holds_drop d1 hno, by simp, by simp, by simp, ?_, nd, by simp only [drop]; rw [d3]; exact iol, ownl, ?_, ?_⟩
          · intro r' hr'; dsimp only at hr'; rw [e2] at hr'; cases hr'
          · intro j hj
            obtain ⟨t1, t2, t3⟩ := tk j hj
            refine ⟨t1, ?_, ?_⟩
            · intro h
              rcases List.mem_cons.1 h with rfl | h
              · exact t3 hkm
              · exact t2 h
            · intro h; have := (List.mem_filter.1 h).1; rw [d4] at this; exact t3 this
          · intro j hj h
            have h' := List.mem_filter.1 h
            rcases List.mem_cons.1 hj with rfl | hj
            · simp at h'
            · rw [d4] at h'; exact disj j hj h'.1
          · have := base.log; rw [e1] at this; exact this
      · exact base
    · next hc =>
      cases hs
      refine ⟨?_, ?_, by simp, ?_, ?_, ?_, ?_, nd, iol, ownl, disj, log⟩
      · intro hm
        exact holds_agree (mq hm) fun a ha => hP.place fun h => ap ha h
      · intro k hk
        exact (mr k hk).other fun a ha => hP.place fun h => ap ha h
      · intro w' k hk; cases hk; exact hP.tick
      · intro n k hk; cases hk
        have := cw n r hr
        unfold tick; split <;> exact this
      · intro k hk; cases hk
        have := cm r hr
        refine ⟨?_, this.2⟩
        unfold tick; split <;> exact this.1
      · intro n hn
        obtain ⟨t1, t2, t3⟩ := tk n hn
        have := hP.place (x := .nd n) t3
        exact ⟨by dsimp only; rw [this.1, this.2]; exact t1, t2, t3⟩

end Neco.Conc
