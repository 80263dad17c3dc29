import Verif.Proof.Llco
import Verif.Proof.Sco
/-!
# C78: a stack is given back once, after its coroutine has ended, and nobody runs on it

First for any program that uses the switching code by its rules, then for the scheduler on top of it, which keeps them.
-/
namespace Neco.Llco

/-- C78: no switch goes to a context whose stack was given back, and no stack is given back on which the running context runs. -/
theorem C78_no_fault {s : S} (r : Reach Rules s) : s.fault = false := (inv_reach r).nf

/-- C78: when the program runs, the cleanup functions called so far are those of the contexts that have ended, each once, in order, with what they were started with. -/
theorem C78_once {s : S} (r : Reach Rules s) (hu : s.pc = .user) : s.rel = (s.ended.map s.born).filter (·.cleanup) ∧ s.ended.Nodup := by
  have h := inv_reach r
  have := h.rel
  rw [cleared_user hu] at this
  exact ⟨this, h.once⟩

/-- C78: a stack is only given back when its context has ended; the running context has its stack -/
theorem C78_not_before {s : S} (r : Reach Rules s) {k : Nat} (hk : s.gone k = true) : k ∈ s.ended ∧ k ≠ s.on := by
  have h := inv_reach r
  have h1 : k ∈ s.ended := by
    have := h.gone k hk
    unfold cleared at this
    split at this
    · exact List.mem_of_mem_tail this
    · exact this
  exact ⟨h1, fun e => h.lv (e ▸ h1)⟩

/-- C78: two contexts that have their stacks have different ones -/
theorem C78_own_stack {s : S} (r : Reach Rules s) {k j : Nat} (hk : 0 < k ∧ k ≤ s.made) (hj : 0 < j ∧ j ≤ s.made) (hkj : k ≠ j) (h1 : k ∉ s.ended) (h2 : j ∉ s.ended) : s.place k ≠ s.place j := by
  have h := inv_reach r
  have ng : ∀ i, i ∉ s.ended → s.gone i = false := by
    intro i hi
    cases he : s.gone i with
    | false => rfl
    | true => exact absurd (C78_not_before r he).1 hi
  exact h.dist k j hk.1 hk.2 hj.1 hj.2 hkj (ng k h1) (ng j h2)

/-- C78: a context that was left and has not ended can be switched to: its registers are saved, its stack is there -/
theorem C78_can_go_on {s : S} (r : Reach Rules s) (hu : s.pc = .user) {k : Nat} (hk : k ≤ s.made) (hl : k ∉ s.ended) (hne : k ≠ s.on) :
    ∃ s', step s (.switch (some k) false) = some s' ∧ s'.on = k ∧ s'.fault = false := by
  have h := inv_reach r
  have hg : s.gone k = false := by
    cases he : s.gone k with
    | false => rfl
    | true => exact absurd (C78_not_before r he).1 hl
  have hok : Rules s (.switch (some k) false) := ⟨hu, hk, hl, by simp⟩
  have hst : step s (.switch (some k) false) = some (switch s (some k) false) := by unfold step; rw [if_neg (by rw [h.nf]; simp)]; simp only [hu]
  refine ⟨_, hst, ?_, (inv_step h hok hst).nf⟩
  rw [switch_eq h hu, if_neg (show ¬ (some k).getD 0 = s.on from hne)]
  have hj : ∀ c, (jump { leave s false with cur := c } (s.cur.getD 0) k).on = k := by
    intro c
    unfold jump
    simp only [leave, Bool.false_eq_true, if_false]
    rw [if_pos]
    refine ⟨?_, hg⟩
    unfold set; split
    · rfl
    · exact h.sus k hk hne
  split
  · exact hj _
  · exact hj _

/-! ## With the scheduler -/

theorem settle_spec {l : S} (h : Inv l) (hp : l.pc = .user ∨ l.pc = .back ∨ l.pc = .fresh) :
    Inv (settle l) ∧ (settle l).pc = .user ∧ (settle l).on = l.on ∧ (settle l).made = l.made ∧ (settle l).ended = l.ended ∧ (settle l).born = l.born := by
  have hnf : ¬ (l.fault = true) := by rw [h.nf]; simp
  have stp : ∀ {a : Act} {x y : S}, (a = .tau ∨ a = .done) → Inv x → step x a = some y → Inv y := by
    intro a x y ha hx hs
    refine inv_step hx ?_ hs
    rcases ha with rfl | rfl <;> exact trivial
  rcases hp with hu | hu | hu
  · have : step l .tau = none := by unfold step; rw [if_neg hnf]; simp only [hu]
    unfold settle; rw [this]
    exact ⟨h, hu, rfl, rfl, rfl, rfl⟩
  all_goals
    have e1 : ∃ b, step l .tau = some (cleanupLast l b) := by unfold step; rw [if_neg hnf]; simp only [hu]; exact ⟨_, rfl⟩
    obtain ⟨b, e1⟩ := e1
    have h1 := stp (.inl rfl) h e1
    have hnf1 : ¬ ((cleanupLast l b).fault = true) := by rw [h1.nf]; simp
    have c1 : (cleanupLast l b).on = l.on ∧ (cleanupLast l b).made = l.made ∧ (cleanupLast l b).ended = l.ended ∧ (cleanupLast l b).born = l.born ∧
        ((cleanupLast l b).pc = .callback b ∨ (cleanupLast l b).pc = if b then .enter else .user) := by
      unfold cleanupLast
      split
      · split
        · exact ⟨rfl, rfl, rfl, rfl, .inl rfl⟩
        · exact ⟨rfl, rfl, rfl, rfl, .inr rfl⟩
      · exact ⟨rfl, rfl, rfl, rfl, .inr rfl⟩
    generalize cleanupLast l b = x at *
    obtain ⟨a1, a2, a3, a4, a5⟩ := c1
    -- after the cleanup function
    have e2 : ∃ y, (step x .done).getD x = y ∧ Inv y ∧ y.on = x.on ∧ y.made = x.made ∧ y.ended = x.ended ∧ y.born = x.born ∧ y.pc = if b then .enter else .user := by
      rcases a5 with a5 | a5
      · have : step x .done = some { x with active := false, needed := false, pc := if b then .enter else .user } := by unfold step; rw [if_neg hnf1]; simp only [a5]
        rw [this]
        exact ⟨_, rfl, stp (.inr rfl) h1 this, rfl, rfl, rfl, rfl, rfl⟩
      · have : step x .done = none := by unfold step; rw [if_neg hnf1]; cases b <;> simp [a5]
        rw [this]
        exact ⟨_, rfl, h1, rfl, rfl, rfl, rfl, a5⟩
    obtain ⟨y, e2, h2, b1, b2, b3, b4, b5⟩ := e2
    have hnf2 : ¬ (y.fault = true) := by rw [h2.nf]; simp
    unfold settle; rw [e1]; dsimp only; rw [e2]
    cases b with
    | false =>
      have : step y .tau = none := by unfold step; rw [if_neg hnf2]; simp [b5]
      rw [this]
      exact ⟨h2, b5, b1.trans a1, b2.trans a2, b3.trans a3, b4.trans a4⟩
    | true =>
      have : step y .tau = some { y with self := set y.self y.on y.desc, cur := some y.on, pc := .user } := by unfold step; rw [if_neg hnf2]; simp [b5]
      rw [this]
      exact ⟨stp (.inl rfl) h2 this, rfl, b1.trans a1, b2.trans a2, b3.trans a3, b4.trans a4⟩

/-- the scheduler and the contexts agree -/
structure Agree (p : SL) : Prop where
  wf : Sco.WF p.sco
  inv : Inv p.l
  pc : p.l.pc = .user
  on : p.l.on = p.sco.cur.getD 0
  made : p.l.made = p.sco.nextId
  ended : p.l.ended = p.sco.done
  ptr : ∀ id, 0 < id → id ≤ p.sco.nextId → p.ptr id = id
  cl : ∀ k, 0 < k → k ≤ p.l.made → (p.l.born k).cleanup = true

theorem cur_known {s : Sco} (h : Sco.WF s) {x : Nat} (hx : s.cur = some x) : 0 < x ∧ x ≤ s.nextId ∧ x ∉ s.done := by
  have hm : x ∈ s.everybody := by unfold Sco.everybody; rw [hx]; simp
  have := h.perm.mem_iff.1 hm
  rw [List.mem_range'_1] at this
  refine ⟨by omega, by omega, fun hd => ?_⟩
  have hn := h.nodup
  unfold Sco.everybody at hn
  rw [hx] at hn
  simp only [Option.toList_some, List.append_assoc, List.cons_append, List.nil_append, List.nodup_cons, List.mem_append, not_or] at hn
  exact hn.1.2.2.2 hd

theorem sw_done (t : Sco) (b : Bool) : (t.switch b).done = t.done ∧ (t.switch b).nextId = t.nextId := by
  unfold Sco.switch
  split
  · split
    · exact ⟨rfl, rfl⟩
    · unfold Sco.dispatch; split <;> exact ⟨rfl, rfl⟩
  · unfold Sco.dispatch; split <;> exact ⟨rfl, rfl⟩

theorem yield_done (t : Sco) : t.yield.done = t.done ∧ t.yield.nextId = t.nextId := by
  unfold Sco.yield; split
  · exact sw_done _ _
  · exact ⟨rfl, rfl⟩

/-- who is left for good -/
def leftBy (s : Sco) : Option Bool → List Nat
  | some true => s.cur.toList
  | _ => []

theorem step_same {s : Sco} {o : Sco.Op} (ho : o ≠ .start ∧ o ≠ .mainStart) :
    (s.step o).nextId = s.nextId ∧ (s.step o).done = leftBy s (calls s o) ++ s.done := by
  cases o with
  | start => exact absurd rfl ho.1
  | mainStart => exact absurd rfl ho.2
  | yield => exact ⟨(yield_done s).2, (yield_done s).1⟩
  | pause =>
    simp only [Sco.step, Sco.pause]
    split
    · exact ⟨(sw_done _ _).2, (sw_done _ _).1⟩
    · exact ⟨rfl, rfl⟩
  | resume id =>
    simp only [Sco.step, Sco.resume, calls]
    split
    · exact ⟨(yield_done _).2, (yield_done _).1⟩
    · exact ⟨rfl, rfl⟩
  | mainResume id =>
    simp only [Sco.step, Sco.resume]
    split
    · exact ⟨(yield_done _).2, (yield_done _).1⟩
    · exact ⟨rfl, rfl⟩
  | finish => exact ⟨(sw_done _ _).2, (sw_done _ _).1⟩
  | exit => exact ⟨(sw_done _ _).2, (sw_done _ _).1⟩
  | mainNext => exact ⟨(sw_done _ _).2, (sw_done _ _).1⟩

theorem step_cur {s : Sco} {o : Sco.Op} (e : o.enabled s) (ho : o ≠ .start ∧ o ≠ .mainStart) (hc : calls s o = none) : (s.step o).cur = s.cur := by
  cases o with
  | start => exact absurd rfl ho.1
  | mainStart => exact absurd rfl ho.2
  | yield => cases hc
  | pause => cases hc
  | finish => cases hc
  | exit => cases hc
  | mainNext => cases hc
  | resume id =>
    simp only [calls] at hc
    split at hc
    · cases hc
    · next h => simp only [Sco.step, Sco.resume]; rw [if_neg h]
  | mainResume id =>
    simp only [Sco.step, Sco.resume]
    split
    · simp only [Sco.yield, Sco.wake]
      have : s.cur = none := e.1
      rw [this]
    · rfl

theorem jump_same (s : S) (a b : Nat) : (jump s a b).made = s.made ∧ (jump s a b).born = s.born ∧ (jump s a b).ended = s.ended := by
  unfold jump; dsimp only; split <;> exact ⟨rfl, rfl, rfl⟩

theorem jump_to {s : S} {a b : Nat} (h : (jump s a b).fault = false) : (jump s a b).pc = .back ∧ (jump s a b).on = b := by
  unfold jump at h ⊢; dsimp only at h ⊢
  split at h
  · next hc => rw [if_pos hc]; exact ⟨rfl, rfl⟩
  · cases h

theorem leave_same (s : S) (f : Bool) : (leave s f).made = s.made ∧ (leave s f).born = s.born ∧ (leave s f).ended = (if f = true then [s.cur.getD 0] else []) ++ s.ended := by
  unfold leave; cases f <;> exact ⟨rfl, rfl, rfl⟩

theorem agree_init : Agree {} := by
  refine ⟨Sco.init_wf, inv_init, rfl, rfl, rfl, rfl, ?_, ?_⟩
  · intro id h1 h2; simp only at h2; omega
  · intro id h1 h2; simp only at h2; omega

theorem agree_start {p : SL} (h : Agree p) {d : Desc} (hc : d.cleanup = true) (hd : ∀ id, 0 < id → id ≤ p.sco.nextId → id ∉ p.sco.done → (p.l.born (p.ptr id)).stack ≠ d.stack)
    : Agree ⟨p.sco.start, settle (start p.l d false), set p.ptr (p.sco.nextId + 1) ((settle (start p.l d false)).cur.getD 0)⟩ := by
  obtain ⟨wf, inv, pc, on, made, ended, ptr, cl⟩ := h
  have e : start p.l d false = enter { p.l with desc := d } (p.l.cur.getD 0) d := by
    unfold start switch0
    rw [if_neg (by rw [inv.inactive pc]; simp), if_neg (by simp)]
    simp
  have hok : ∀ k, 0 < k → k ≤ p.l.made → p.l.gone k = false → p.l.place k ≠ d.stack := by
    intro k h1 h2 h3
    rw [inv.pl k h1 h2]
    have := hd k h1 (by rw [← made]; exact h2) ?_
    · rwa [ptr k h1 (by rw [← made]; exact h2)] at this
    · intro hk
      rw [← ended] at hk
      have := inv.gn k (by rw [cleared_user pc]; exact hk) (cl k h1 h2)
      rw [h3] at this; cases this
  have hi : Inv (start p.l d false) := by
    have hst : step p.l (.start d false) = some (start p.l d false) := by unfold step; rw [if_neg (by rw [inv.nf]; simp)]; simp only [pc]
    exact inv_step (a := .start d false) inv ⟨pc, hok, by simp⟩ hst
  have hpc : (start p.l d false).pc = .fresh := by rw [e]; rfl
  obtain ⟨s1, s2, s3, s4, s5, s6⟩ := settle_spec hi (.inr (.inr hpc))
  have hcur := s1.cur (by rw [s2]; rfl)
  have f1 : (start p.l d false).on = p.l.made + 1 := by rw [e]; rfl
  have f2 : (start p.l d false).made = p.l.made + 1 := by rw [e]; rfl
  have f3 : (start p.l d false).ended = p.l.ended := by rw [e]; rfl
  have f4 : (start p.l d false).born = set p.l.born (p.l.made + 1) d := by rw [e]; rfl
  have g : p.sco.start.cur = some (p.sco.nextId + 1) ∧ p.sco.start.nextId = p.sco.nextId + 1 ∧ p.sco.start.done = p.sco.done := by
    unfold Sco.start; dsimp only; split <;> exact ⟨rfl, rfl, rfl⟩
  refine ⟨Sco.start_wf wf, s1, s2, ?_, ?_, ?_, ?_, ?_⟩
  · dsimp only; rw [s3, f1, g.1, made]; rfl
  · dsimp only; rw [s4, f2, g.2.1, made]
  · dsimp only; rw [s5, f3, g.2.2, ended]
  · intro id h1 h2
    dsimp only at h2 ⊢
    rw [g.2.1] at h2
    unfold set; split
    · next e => rw [hcur, s3, f1, made, e]
    · exact ptr id h1 (by omega)
  · intro k h1 h2
    dsimp only at h2 ⊢
    rw [s4, f2] at h2
    rw [s6, f4]; unfold set; split
    · exact hc
    · exact cl k h1 (by omega)

theorem agree_step {p : SL} (h : Agree p) {o : Sco.Op} {d : Desc} (e : o.enabled p.sco)
    (hd : o = .start ∨ o = .mainStart → d.cleanup = true ∧ ∀ id, 0 < id → id ≤ p.sco.nextId → id ∉ p.sco.done → (p.l.born (p.ptr id)).stack ≠ d.stack) : Agree (stepSL p o d) := by
  by_cases ho : o = .start ∨ o = .mainStart
  · obtain ⟨d1, d2⟩ := hd ho
    have := agree_start h d1 d2
    rcases ho with rfl | rfl <;> exact this
  have ho : o ≠ .start ∧ o ≠ .mainStart := ⟨fun e => ho (.inl e), fun e => ho (.inr e)⟩
  have wf' := Sco.step_wf h.wf o e
  obtain ⟨n1, n2⟩ := step_same (s := p.sco) ho
  have key : stepSL p o d = match calls p.sco o with
    | none => { p with sco := p.sco.step o }
    | some final => { p with sco := p.sco.step o, l := settle (match (p.sco.step o).cur with
        | none => switch p.l none final
        | some x => if p.l.gone (p.ptr x) = true then { p.l with fault := true } else switch p.l (some (p.ptr x)) final) } := by
    unfold stepSL
    cases o <;> first | exact absurd rfl ho.1 | exact absurd rfl ho.2 | rfl
  rw [key]
  obtain ⟨wf, inv, pc, on, made, ended, ptr, cl⟩ := h
  cases hc : calls p.sco o with
  | none =>
    rw [hc] at n2
    refine ⟨wf', inv, pc, ?_, ?_, ?_, ?_, cl⟩
    · dsimp only; rw [step_cur e ho hc]; exact on
    · dsimp only; rw [n1]; exact made
    · dsimp only; rw [n2]; exact ended
    · intro id h1 h2; dsimp only at h2; rw [n1] at h2; exact ptr id h1 h2
  | some final =>
    dsimp only
    -- where it goes
    have hco : ∃ c : Option Nat, c.getD 0 = (p.sco.step o).cur.getD 0 ∧ (match (p.sco.step o).cur with
        | none => switch p.l none final
        | some x => if p.l.gone (p.ptr x) = true then { p.l with fault := true } else switch p.l (some (p.ptr x)) final) = switch p.l c final ∧
        c.getD 0 ≤ p.l.made ∧ c.getD 0 ∉ (p.sco.step o).done := by
      cases hx : (p.sco.step o).cur with
      | none =>
        refine ⟨none, rfl, rfl, Nat.zero_le _, ?_⟩
        intro h0
        have : 0 ∈ (p.sco.step o).everybody := by unfold Sco.everybody; exact List.mem_append_right _ h0
        have := wf'.perm.mem_iff.1 this
        rw [List.mem_range'_1] at this; simp at this
      | some x =>
        obtain ⟨x1, x2, x3⟩ := cur_known wf' hx
        rw [n1] at x2
        have hxd : x ∉ p.sco.done := fun h => x3 (by rw [n2]; exact List.mem_append_right _ h)
        have hg : ¬ (p.l.gone (p.ptr x) = true) := by
          rw [ptr x x1 x2]
          intro hg
          have := inv.gone x hg
          rw [cleared_user pc, ended] at this
          exact hxd this
        refine ⟨some (p.ptr x), by rw [ptr x x1 x2], ?_, by rw [ptr x x1 x2, made]; exact x2, by rw [ptr x x1 x2]; exact x3⟩
        dsimp only; rw [if_neg hg]
    obtain ⟨c, hcc, hsw, hle, hnd⟩ := hco
    rw [hsw]
    have hnd' : c.getD 0 ∉ p.l.ended := by rw [ended]; exact fun h => hnd (by rw [n2]; exact List.mem_append_right _ h)
    have hfin : final = true → ∃ y, p.sco.cur = some y := by
      intro hf; subst hf
      have : p.sco.cur.isSome := by
        cases o <;> first | exact e | cases hc | (simp only [calls] at hc; split at hc <;> cases hc)
      exact Option.isSome_iff_exists.1 this
    have hok : Rules p.l (.switch c final) := by
      refine ⟨pc, hle, hnd', fun hf => ?_⟩
      obtain ⟨y, hy⟩ := hfin hf
      rw [on, hy]
      refine ⟨Nat.ne_of_gt (cur_known wf hy).1, fun h => hnd ?_⟩
      rw [h, n2, hc, hf, leftBy, hy]; simp
    have hst : step p.l (.switch c final) = some (switch p.l c final) := by unfold step; rw [if_neg (by rw [inv.nf]; simp)]; simp only [pc]
    have hi := inv_step inv hok hst
    -- what it leaves
    have hj : ∀ c', (jump { leave p.l final with cur := c' } (p.l.cur.getD 0) (c.getD 0)).made = p.l.made ∧ (jump { leave p.l final with cur := c' } (p.l.cur.getD 0) (c.getD 0)).born = p.l.born ∧
        (jump { leave p.l final with cur := c' } (p.l.cur.getD 0) (c.getD 0)).ended = (if final = true then [p.l.on] else []) ++ p.l.ended := by
      intro c'
      have hcu := inv.cur (by rw [pc]; rfl)
      obtain ⟨j1, j2, j3⟩ := jump_same { leave p.l final with cur := c' } (p.l.cur.getD 0) (c.getD 0)
      obtain ⟨k1, k2, k3⟩ := leave_same p.l final
      rw [hcu] at k3
      exact ⟨j1.trans k1, j2.trans k2, j3.trans k3⟩
    have hsp : ((switch p.l c final).pc = .user ∨ (switch p.l c final).pc = .back) ∧ (switch p.l c final).on = c.getD 0 ∧ (switch p.l c final).made = p.l.made ∧ (switch p.l c final).born = p.l.born ∧
        (switch p.l c final).ended = (p.sco.step o).done := by
      have hd' : (p.sco.step o).done = (if final = true then [p.l.on] else []) ++ p.l.ended := by
        rw [n2, hc, ended]
        cases final with
        | false => rfl
        | true => obtain ⟨y, hy⟩ := hfin rfl; rw [on, leftBy, hy]; rfl
      rw [hd']
      have hif := hi.nf
      rw [switch_eq inv pc] at hif ⊢
      split
      · next he =>
        have : final = false := by
          cases final with
          | false => rfl
          | true => exact absurd he (hok.2.2.2 rfl).2
        subst this
        exact ⟨.inl pc, he.symm, rfl, rfl, by simp⟩
      · next he =>
        rw [if_neg he] at hif
        have hjj : ∀ c', (jump { leave p.l final with cur := c' } (p.l.cur.getD 0) (c.getD 0)).fault = false → (jump { leave p.l final with cur := c' } (p.l.cur.getD 0) (c.getD 0)).pc = .back ∧ (jump { leave p.l final with cur := c' } (p.l.cur.getD 0) (c.getD 0)).on = c.getD 0 := by
          intro c' hf; exact jump_to hf
        split
        · next hx => rw [if_pos hx] at hif; exact ⟨.inr (hjj _ hif).1, (hjj _ hif).2, (hj _).1, (hj _).2.1, (hj _).2.2⟩
        · next hx => rw [if_neg hx] at hif; exact ⟨.inr (hjj _ hif).1, (hjj _ hif).2, (hj _).1, (hj _).2.1, (hj _).2.2⟩
    obtain ⟨q1, q2, q3, q4, q5⟩ := hsp
    obtain ⟨s1, s2, s3, s4, s5, s6⟩ := settle_spec hi (q1.elim .inl (fun h => .inr (.inl h)))
    refine ⟨wf', s1, s2, ?_, ?_, ?_, ?_, ?_⟩
    · dsimp only; rw [s3, q2, hcc]
    · dsimp only; rw [s4, q3, n1, made]
    · dsimp only; rw [s5, q5]
    · intro id h1 h2; dsimp only at h2; rw [n1] at h2; exact ptr id h1 h2
    · intro k h1 h2; dsimp only at h2 ⊢; rw [s4, q3] at h2; rw [s6, q4]; exact cl k h1 h2

theorem agree_runs {p : SL} (r : Runs p) : Agree p := by
  induction r with
  | init => exact agree_init
  | step _ o d e hd ih => exact agree_step ih e hd

/-- C78: the scheduler uses the switching code by its rules, whatever the program does: nothing undefined happens and the process is not aborted. -/
theorem C78_sco {p : SL} (r : Runs p) : p.l.fault = false ∧ p.l.pc = .user := ⟨(agree_runs r).inv.nf, (agree_runs r).pc⟩

/-- C78: the processor runs on the stack of the coroutine that the scheduler takes for the running one, or of the thread. -/
theorem C78_runs_current {p : SL} (r : Runs p) : p.l.on = (match p.sco.cur with | none => 0 | some id => p.ptr id) := by
  have h := agree_runs r
  rw [h.on]
  cases hc : p.sco.cur with
  | none => rfl
  | some x => obtain ⟨a, b, _⟩ := cur_known h.wf hc; exact (h.ptr x a b).symm

/-- C78: the stacks given back are those of the coroutines that have finished, each exactly once, in the order in which they finished. -/
theorem C78_given_back {p : SL} (r : Runs p) : p.l.rel = p.sco.done.map (fun id => p.l.born (p.ptr id)) ∧ p.sco.done.Nodup := by
  have h := agree_runs r
  have hr := h.inv.rel
  rw [cleared_user h.pc, h.ended] at hr
  have hb : ∀ k ∈ p.sco.done, 0 < k ∧ k ≤ p.sco.nextId := by
    intro k hk; have := h.inv.rng k (by rw [h.ended]; exact hk); rw [h.made] at this; exact this
  refine ⟨?_, by rw [← h.ended]; exact h.inv.once⟩
  rw [hr]; unfold rels
  rw [List.filter_eq_self.2]
  · apply List.map_congr_left
    intro k hk; rw [h.ptr k (hb k hk).1 (hb k hk).2]
  · intro x hx
    obtain ⟨k, hk, rfl⟩ := List.mem_map.1 hx
    exact h.cl k (hb k hk).1 (by rw [h.made]; exact (hb k hk).2)

/-- C78: a coroutine that has not finished has its stack, with no other unfinished coroutine on it -/
theorem C78_unfinished {p : SL} (r : Runs p) {i j : Nat} (hi : 0 < i ∧ i ≤ p.sco.nextId) (hj : 0 < j ∧ j ≤ p.sco.nextId) (hij : i ≠ j) (h1 : i ∉ p.sco.done) (h2 : j ∉ p.sco.done) :
    p.l.gone (p.ptr i) = false ∧ (p.l.born (p.ptr i)).stack ≠ (p.l.born (p.ptr j)).stack := by
  have h := agree_runs r
  have ng : ∀ k, k ∉ p.sco.done → p.l.gone k = false := by
    intro k hk
    cases he : p.l.gone k with
    | false => rfl
    | true => have := h.inv.gone k he; rw [cleared_user h.pc, h.ended] at this; exact absurd this hk
  rw [h.ptr i hi.1 hi.2, h.ptr j hj.1 hj.2]
  refine ⟨ng i h1, ?_⟩
  rw [← h.inv.pl i hi.1 (by rw [h.made]; exact hi.2), ← h.inv.pl j hj.1 (by rw [h.made]; exact hj.2)]
  exact h.inv.dist i j hi.1 (by rw [h.made]; exact hi.2) hj.1 (by rw [h.made]; exact hj.2) hij (ng i h1) (ng j h2)

/-! ## Cases -/

/-- a step of the scheduler, if the conditions hold -/
def stepB (p : SL) (o : Sco.Op) (d : Desc) : Option SL :=
  if o.enabled p.sco ∧ (o = .start ∨ o = .mainStart → d.cleanup = true ∧ ∀ id ∈ List.range' 1 p.sco.nextId, id ∉ p.sco.done → (p.l.born (p.ptr id)).stack ≠ d.stack) then some (stepSL p o d) else none

theorem runs_stepB {p p' : SL} {o : Sco.Op} {d : Desc} (r : Runs p) (h : stepB p o d = some p') : Runs p' := by
  unfold stepB at h
  split at h
  · next hc =>
    cases h
    refine .step r o d hc.1 (fun ho => ⟨(hc.2 ho).1, fun id h1 h2 => (hc.2 ho).2 id ?_⟩)
    rw [List.mem_range'_1]; omega
  · cases h

def runB (p : SL) : List (Sco.Op × Desc) → Option SL
  | [] => some p
  | (o, d) :: l => (stepB p o d).bind (fun p => runB p l)

theorem runs_runB {p p' : SL} (r : Runs p) : ∀ {l : List (Sco.Op × Desc)}, runB p l = some p' → Runs p'
  | [], h => by cases h; exact r
  | (o, d) :: l, h => by
    rw [runB, Option.bind_eq_some_iff] at h
    obtain ⟨q, hq, h⟩ := h
    exact runs_runB (runs_stepB r hq) h

/-- three coroutines; the second ends and its stack is used again for the third -/
example : ∃ p, Runs p ∧ p.sco.done = [2] ∧ p.sco.cur = some 3 ∧ p.l.rel = [⟨200, 2, true⟩] ∧ (p.l.born 3).stack = 200 ∧ p.l.gone 2 = true ∧ p.l.gone 3 = false := by
  have h : (runB {} [(.mainStart, ⟨100, 1, true⟩), (.start, ⟨200, 2, true⟩), (.yield, .zero), (.yield, .zero), (.finish, .zero), (.start, ⟨200, 3, true⟩)]).any (fun p =>
      decide (p.sco.done = [2]) && decide (p.sco.cur = some 3) && decide (p.l.rel = [⟨200, 2, true⟩]) && decide ((p.l.born 3).stack = 200) && p.l.gone 2 && !p.l.gone 3) = true := by decide +kernel
  rw [Option.any_eq_true] at h
  obtain ⟨p, hp, h⟩ := h
  simp only [Bool.and_eq_true, decide_eq_true_iff, Bool.not_eq_true'] at h
  obtain ⟨⟨⟨⟨⟨a, b⟩, c⟩, d⟩, e⟩, f⟩ := h
  exact ⟨p, runs_runB .init hp, a, b, c, d, e, f⟩

/-- without the rules it goes wrong: a second coroutine on a stack in use; when the first ends, the second runs on a stack that was given back -/
theorem C78_shared_not_general : ∃ s, Reach (fun _ _ => True) s ∧ s.fault = true := by
  have h1 : Reach (fun _ _ => True) ((((((step {} (.start ⟨1, 1, true⟩ false)).bind (step · .tau)).bind (step · .tau)).bind (step · (.start ⟨1, 2, true⟩ true))).bind (step · .tau)).getD {}) := by
    refine .step (s := ((((step {} (.start ⟨1, 1, true⟩ false)).bind (step · .tau)).bind (step · .tau)).bind (step · (.start ⟨1, 2, true⟩ true))).getD {}) ?_ .tau trivial rfl
    refine .step (s := (((step {} (.start ⟨1, 1, true⟩ false)).bind (step · .tau)).bind (step · .tau)).getD {}) ?_ (.start ⟨1, 2, true⟩ true) trivial rfl
    refine .step (s := ((step {} (.start ⟨1, 1, true⟩ false)).bind (step · .tau)).getD {}) ?_ .tau trivial rfl
    refine .step (s := (step {} (.start ⟨1, 1, true⟩ false)).getD {}) ?_ .tau trivial rfl
    exact .step .init (.start ⟨1, 1, true⟩ false) trivial rfl
  exact ⟨_, h1, rfl⟩

end Neco.Llco
