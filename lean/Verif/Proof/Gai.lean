import Verif.Spec.Gai

/-! # Lemmas: neco_getaddrinfo -/

namespace Neco.Gai

/-- what is allocated besides the pipe -/
def lower (h v n : Bool) : List Obj := (if h then [.hints] else []) ++ (if v then [.service] else []) ++ (if n then [.node] else []) ++ [.args]

/-- what is allocated while the argument block is: newest first -/
def whole (c : Call) : List Obj := (if c.hasRes || c.given then [.res] else []) ++ .fd1 :: .fd0 :: lower c.hasHints c.hasService c.hasNode

/-- the addresses given to the user -/
def gift (c : Call) : List Obj := if c.given then [.res] else []

/-- what is left open -/
def left (c : Call) : List Obj := (if c.fds1 = 0 then [.fd1] else []) ++ (if c.fds0 = 0 then [.fd0] else [])

theorem use_in {o : Obj} {c : Call} (h : o ∈ c.live) : use o c = c := by unfold use; rw [if_pos h]

theorem free_whole (c : Call) (h v n r g : Bool) (f0 f1 : Nat) (hg : r = true → g = false) :
    argsFree { c with hasHints := h, hasService := v, hasNode := n, hasRes := r, given := g, fds0 := f0, fds1 := f1, live := (if r || g then [.res] else []) ++ .fd1 :: .fd0 :: lower h v n } =
      { c with hasHints := h, hasService := v, hasNode := n, hasRes := r, given := g, fds0 := f0, fds1 := f1, live := (if g then [.res] else []) ++ ((if f1 = 0 then [.fd1] else []) ++ (if f0 = 0 then [.fd0] else [])) } := by
  by_cases h0 : f0 = 0 <;> by_cases h1 : f1 = 0 <;> cases n <;> cases v <;> cases h <;> cases r <;> cases g <;> simp_all [argsFree, use, drop, lower]

theorem free_lower (c : Call) (h v n : Bool) :
    argsFree { c with hasHints := h, hasService := v, hasNode := n, hasRes := false, fds0 := 0, fds1 := 0, live := lower h v n } =
      { c with hasHints := h, hasService := v, hasNode := n, hasRes := false, fds0 := 0, fds1 := 0, live := [] } := by
  cases n <;> cases v <;> cases h <;> simp [argsFree, use, drop, lower]

theorem argsFree_spec {c : Call} (hl : c.live = whole c) (hg : c.hasRes = true → c.given = false) : argsFree c = { c with live := gift c ++ left c } := by
  have := free_whole c c.hasHints c.hasService c.hasNode c.hasRes c.given c.fds0 c.fds1 hg
  have he : ({ c with live := (if c.hasRes || c.given then [.res] else []) ++ .fd1 :: .fd0 :: lower c.hasHints c.hasService c.hasNode } : Call) = c := by
    have : c.live = (if c.hasRes || c.given then [.res] else []) ++ .fd1 :: .fd0 :: lower c.hasHints c.hasService c.hasNode := hl
    rw [← this]
  exact (congrArg argsFree he).symm.trans this

theorem mem_whole (c : Call) : .args ∈ whole c ∧ .fd0 ∈ whole c ∧ .fd1 ∈ whole c ∧ (c.hasNode = true → .node ∈ whole c) ∧ (c.hasService = true → .service ∈ whole c) ∧ (c.hasHints = true → .hints ∈ whole c) := by
  simp +contextual [whole, lower]

/-- what holds of a call at any time -/
structure Inv (c : Call) : Prop where
  flt : c.fault = false
  none : c.th = .none → (∃ r, c.co = .done r) ∧ c.given = false
  look : c.th = .lookup → c.hasRes = false
  early : (c.th = .lookup ∨ c.th = .write) → c.pipe = 0 ∧ c.given = false ∧ ∀ r, c.co ≠ .yield r
  spin : c.th = .spin → c.pipe = 1 ∨ (c.pipe = 0 ∧ c.co ≠ .wait)
  ret : c.th ≠ .none → (c.returned = true ↔ Over c)
  late : (c.th = .free ∨ c.th = .count ∨ c.th = .done) → c.returned = true
  one : c.hasRes = true → c.given = false
  own : (c.th ≠ .none ∧ c.th ≠ .count ∧ c.th ≠ .done) → c.live = whole c
  gone : (c.th = .count ∨ c.th = .done) → c.live = gift c ++ left c
  nil : c.th = .none → c.live = left c ∨ c.live = []
  wait : c.co = .wait → c.given = false

theorem argsNew_spec (e : Env) (n v h : Bool) :
    argsNew e { node := n, service := v, hints := h } = (true, { node := n, service := v, hints := h, hasNode := n, hasService := v, hasHints := h, live := lower h v n }) ∨
    ∃ n' v' h', argsNew e { node := n, service := v, hints := h } = (false, { node := n, service := v, hints := h, hasNode := n', hasService := v', hasHints := h', live := [] }) := by
  rcases e with ⟨a, b, c, d, p, f, g⟩
  cases n <;> cases v <;> cases h <;> cases a <;> cases b <;> cases c <;> cases d <;> first | (left; rfl) | (right; exact ⟨_, _, _, rfl⟩)

theorem setup_spec (e : Env) (n v h : Bool) : Inv (setup e { node := n, service := v, hints := h }) ∧ ((setup e { node := n, service := v, hints := h }).th = .none ∨ (setup e { node := n, service := v, hints := h }).th = .lookup) := by
  have dead : ∀ (c : Call) r, c.fault = false → c.given = false → c.hasRes = false → c.th = .none → (c.live = left c ∨ c.live = []) → Inv { c with co := .done r } := by
    intro c r h1 h2 h3 h4 h5
    refine ⟨h1, fun _ => ⟨⟨r, rfl⟩, h2⟩, fun _ => h3, ?_, ?_, ?_, ?_, ?_, ?_, ?_, fun _ => h5, fun _ => h2⟩ <;> simp [h4, h3]
  unfold setup
  rcases argsNew_spec e n v h with k | ⟨n', v', h', k⟩
  · rw [k]
    dsimp only
    rw [if_neg (by decide)]
    split
    · have := free_lower { node := n, service := v, hints := h } h v n
      rw [show argsFree { node := n, service := v, hints := h, hasNode := n, hasService := v, hasHints := h, live := lower h v n } = _ from this]
      exact ⟨dead _ _ rfl rfl rfl rfl (.inr rfl), .inl rfl⟩
    · rename_i f0 f1 _
      have hf := free_whole { node := n, service := v, hints := h } h v n false false f0 f1 (fun e => by cases e)
      have hf' : argsFree { new .fd1 (new .fd0 { node := n, service := v, hints := h, hasNode := n, hasService := v, hasHints := h, live := lower h v n }) with fds0 := f0, fds1 := f1 } = _ := hf
      split
      · rw [hf']
        exact ⟨dead _ _ rfl rfl rfl rfl (.inl rfl), .inl rfl⟩
      · split
        · rw [hf']
          exact ⟨dead _ _ rfl rfl rfl rfl (.inl rfl), .inl rfl⟩
        · refine ⟨⟨rfl, fun e => (by cases e), fun _ => rfl, fun _ => ⟨rfl, rfl, fun r e => (by cases e)⟩, fun e => (by cases e), fun _ => ?_, fun e => ?_, fun _ => rfl, fun _ => rfl, fun e => ?_, fun e => (by cases e), fun _ => rfl⟩, .inr rfl⟩
          · simp [Over, new]
          · simp at e
          · simp at e
  · rw [k]
    dsimp only
    rw [if_pos (by decide)]
    exact ⟨dead { node := n, service := v, hints := h, hasNode := n', hasService := v', hasHints := h', live := [] } _ rfl rfl rfl rfl (.inr rfl), .inl rfl⟩

theorem act_spec {c c' : Call} {a : Act} (hi : Inv c) (h : act c a = some c') : Inv c' := by
  obtain ⟨m1, m2, m3, m4, m5, m6⟩ := mem_whole c
  -- a coroutine that is not through: the thread has not freed anything
  have alive : ¬ Over c → c.live = whole c ∧ c.th ≠ .none ∧ c.th ≠ .free ∧ c.th ≠ .count ∧ c.th ≠ .done ∧ c.returned = false := by
    intro ho
    have hn : c.th ≠ .none := fun e => ho (.inl (hi.none e).1)
    have hr : c.returned = false := by
      cases e : c.returned with
      | false => rfl
      | true => exact absurd ((hi.ret hn).mp e) ho
    have x1 : c.th ≠ .free := fun e => by have := hi.late (.inl e); rw [hr] at this; cases this
    have x2 : c.th ≠ .count := fun e => by have := hi.late (.inr (.inl e)); rw [hr] at this; cases this
    have x3 : c.th ≠ .done := fun e => by have := hi.late (.inr (.inr e)); rw [hr] at this; cases this
    exact ⟨hi.own ⟨hn, x2, x3⟩, hn, x1, x2, x3, hr⟩
  have usage : ∀ o, c.live = whole c → o ∈ whole c → use o c = c := fun o h1 h2 => use_in (h1 ▸ h2)
  cases a with
  | readOk =>
    simp only [act] at h
    split at h
    · rename_i hc
      have ho : ¬ Over c := by rintro (⟨r, e⟩ | e) <;> rw [hc.1] at e <;> cases e
      obtain ⟨a1, a2, a3, a4, a5, a6⟩ := alive ho
      rw [usage _ a1 m1, usage _ a1 m2] at h
      cases h
      have hsp : c.th = .spin := by
        cases e : c.th <;> first | rfl | (exfalso; first | exact a2 e | exact a3 e | exact a4 e | exact a5 e | (have := (hi.early (.inl e)).1; omega) | (have := (hi.early (.inr e)).1; omega))
      refine ⟨hi.flt, fun e => absurd e a2, fun _ => rfl, fun e => ?_, fun _ => .inr ⟨?_, by simp⟩, fun _ => ?_, fun e => ?_, fun e => (by cases e), fun _ => ?_, fun e => ?_, fun e => absurd e a2, fun e => (by cases e)⟩
      · dsimp only at e; rw [hsp] at e; simp at e
      · rcases hi.spin hsp with k | k
        · dsimp only; omega
        · exact absurd hc.1 k.2
      · dsimp only; rw [a6]; simp [Over]
      · dsimp only at e; rw [hsp] at e; simp at e
      · dsimp only
        rw [a1]
        have := hi.one
        simp only [whole]
        cases hr : c.hasRes with
        | true => simp
        | false =>
          simp [hi.wait hc.1]
      · dsimp only at e; rw [hsp] at e; simp at e
    · cases h
  | readErr =>
    simp only [act] at h
    split at h
    · rename_i hc
      have ho : ¬ Over c := by rintro (⟨r, e⟩ | e) <;> rw [hc] at e <;> cases e
      obtain ⟨a1, a2, a3, a4, a5, a6⟩ := alive ho
      rw [usage _ a1 m1, usage _ a1 m2] at h
      cases h
      refine ⟨hi.flt, fun e => absurd e a2, hi.look, fun e => ⟨(hi.early e).1, (hi.early e).2.1, fun r k => (by cases k)⟩, fun e => ?_, fun _ => ?_, hi.late, hi.one, hi.own, hi.gone, fun e => absurd e a2, fun e => (by cases e)⟩
      · rcases hi.spin e with k | k
        · exact .inl k
        · exact .inr ⟨k.1, by simp⟩
      · dsimp only; rw [a6]; simp [Over]
    · cases h
  | exit =>
    have fin : ∀ c1 : Call, ¬ Over c → c1 = { c with returned := true, co := .exited } → Inv c1 := by
      intro c1 ho e
      subst e
      obtain ⟨a1, a2, a3, a4, a5, a6⟩ := alive ho
      refine ⟨hi.flt, fun e => absurd e a2, hi.look, fun e => ⟨(hi.early e).1, (hi.early e).2.1, fun r k => (by cases k)⟩, fun e => ?_, fun _ => ?_, fun _ => rfl, hi.one, hi.own, hi.gone, fun e => absurd e a2, fun e => (by cases e)⟩
      · rcases hi.spin e with k | k
        · exact .inl k
        · exact .inr ⟨k.1, by simp⟩
      · simp [Over]
    simp only [act] at h
    split at h
    · rename_i hc
      have ho : ¬ Over c := by rintro (⟨r, e⟩ | e) <;> rw [hc] at e <;> cases e
      obtain ⟨a1, a2, a3, a4, a5, a6⟩ := alive ho
      rw [usage _ a1 m1, usage _ a1 m2, cleanup, usage _ a1 m1] at h
      cases h
      exact fin _ ho rfl
    · rename_i hc
      have ho : ¬ Over c := by rintro (⟨r, e⟩ | e) <;> rw [hc] at e <;> cases e
      obtain ⟨a1, a2, a3, a4, a5, a6⟩ := alive ho
      rw [cleanup, usage _ a1 m1] at h
      cases h
      exact fin _ ho rfl
    · cases h
  | resumed =>
    simp only [act] at h
    split at h
    · rename_i r hc
      have ho : ¬ Over c := by rintro (⟨r, e⟩ | e) <;> rw [hc] at e <;> cases e
      obtain ⟨a1, a2, a3, a4, a5, a6⟩ := alive ho
      cases h
      refine ⟨hi.flt, fun e => absurd e a2, hi.look, fun e => ⟨(hi.early e).1, (hi.early e).2.1, fun r k => (by cases k)⟩, fun e => ?_, fun _ => ?_, hi.late, hi.one, hi.own, hi.gone, fun e => absurd e a2, fun e => (by cases e)⟩
      · rcases hi.spin e with k | k
        · exact .inl k
        · exact .inr ⟨k.1, by simp⟩
      · dsimp only; rw [a6]; simp [Over]
    · cases h
  | pop =>
    simp only [act] at h
    split at h
    · rename_i r hc
      have ho : ¬ Over c := by rintro (⟨r, e⟩ | e) <;> rw [hc] at e <;> cases e
      obtain ⟨a1, a2, a3, a4, a5, a6⟩ := alive ho
      rw [cleanup, usage _ a1 m1] at h
      cases h
      refine ⟨hi.flt, fun e => absurd e a2, hi.look, fun e => ⟨(hi.early e).1, (hi.early e).2.1, fun r k => (by cases k)⟩, fun e => ?_, fun _ => ?_, fun _ => rfl, hi.one, hi.own, hi.gone, fun e => absurd e a2, fun e => (by cases e)⟩
      · rcases hi.spin e with k | k
        · exact .inl k
        · exact .inr ⟨k.1, by simp⟩
      · simp [Over]
    · cases h
  | looked ret errnum =>
    simp only [act] at h
    split at h
    · rename_i hc
      have a1 := hi.own (by rw [hc]; decide)
      have hr := hi.look hc
      obtain ⟨e1, e2, e3⟩ := hi.early (.inl hc)
      have hret := hi.ret (by rw [hc]; decide)
      have u : ∀ (b : Bool) o, (b = true → o ∈ whole c) → (if b = true then use o c else c) = c := by
        intro b o hb
        cases b with
        | false => rfl
        | true => exact usage _ a1 (hb rfl)
      rw [usage _ a1 m1, u _ _ m4, u _ _ m5, u _ _ m6] at h
      split at h
      · cases h
        refine ⟨hi.flt, fun e => (by cases e), fun e => (by cases e), fun e => ⟨e1, e2, e3⟩, fun e => (by cases e), fun _ => hret, fun e => ?_, fun _ => e2, fun _ => ?_, fun e => ?_, fun e => (by cases e), hi.wait⟩
        · simp at e
        · simp only [new, whole, a1, hr, e2]; simp
        · simp at e
      · cases h
        refine ⟨hi.flt, fun e => (by cases e), fun e => (by cases e), fun e => ⟨e1, e2, e3⟩, fun e => (by cases e), fun _ => hret, fun e => ?_, hi.one, fun _ => a1, fun e => ?_, fun e => (by cases e), hi.wait⟩
        · simp at e
        · simp at e
    · cases h
  | thread =>
    simp only [act] at h
    split at h
    · rename_i hc
      have a1 := hi.own (by rw [hc]; decide)
      obtain ⟨e1, e2, e3⟩ := hi.early (.inr hc)
      have hret := hi.ret (by rw [hc]; decide)
      rw [usage _ a1 m1, usage _ a1 m3] at h
      cases h
      refine ⟨hi.flt, fun e => (by cases e), fun e => (by cases e), fun e => ?_, fun _ => .inl (by dsimp only; omega), fun _ => hret, fun e => ?_, hi.one, fun _ => a1, fun e => ?_, fun e => (by cases e), hi.wait⟩ <;> simp at e
    · rename_i hc
      have a1 := hi.own (by rw [hc]; decide)
      have hret := hi.ret (by rw [hc]; decide)
      rw [usage _ a1 m1] at h
      split at h
      · rename_i hr
        cases h
        refine ⟨hi.flt, fun e => (by cases e), fun e => (by cases e), fun e => ?_, fun e => (by cases e), fun _ => hret, fun e => hr, hi.one, fun _ => a1, fun e => ?_, fun e => (by cases e), hi.wait⟩ <;> simp at e
      · cases h; exact hi
    · rename_i hc
      have a1 := hi.own (by rw [hc]; decide)
      have hret := hi.ret (by rw [hc]; decide)
      rw [argsFree_spec a1 hi.one] at h
      cases h
      refine ⟨hi.flt, fun e => (by cases e), fun e => (by cases e), fun e => ?_, fun e => (by cases e), fun _ => hret, fun e => hi.late (.inl hc), hi.one, fun e => absurd rfl e.2.1, fun e => rfl, fun e => (by cases e), hi.wait⟩
      simp at e
    · rename_i hc
      have hret := hi.ret (by rw [hc]; decide)
      cases h
      refine ⟨hi.flt, fun e => (by cases e), fun e => (by cases e), fun e => ?_, fun e => (by cases e), fun _ => hret, fun e => hi.late (.inr (.inl hc)), hi.one, fun e => absurd rfl e.2.2, fun e => hi.gone (.inl hc), fun e => (by cases e), hi.wait⟩
      simp at e
    · cases h

theorem use_th (o : Obj) (c : Call) : (use o c).th = c.th := by unfold use; split <;> rfl
theorem drop_th (o : Obj) (c : Call) : (drop o c).th = c.th := by unfold drop; split <;> rfl
theorem ite_th (b : Prop) [Decidable b] (c d : Call) : (if b then c else d).th = if b then c.th else d.th := by split <;> rfl
theorem argsFree_th (c : Call) : (argsFree c).th = c.th := by
  simp only [argsFree, drop_th, ite_th, use_th, ite_self]

theorem run_spec {c c' : Call} {a : Act} (h : act c a = some c') : (c.th = .count ∧ c'.th = .done) ∨ (Running c' = Running c ∧ ¬ (c.th = .count ∧ c'.th = .done)) := by
  cases a <;> simp only [act] at h <;> (repeat' split at h) <;> first
    | (cases h; done)
    | (cases h; simp_all [Running, cleanup, use_th, argsFree_th, new, ite_th])

theorem reach_inv {s : S} (r : Reach s) : (∀ c ∈ s.calls, Inv c) ∧ s.counter = (s.calls.filter Running).length := by
  induction r with
  | init => exact ⟨by simp, rfl⟩
  | @step s s' r a h ih =>
    cases a with
    | call n v hh e =>
      simp only [step, Option.some.injEq] at h
      subst h
      obtain ⟨k1, k2⟩ := setup_spec e n v hh
      refine ⟨fun c hc => ?_, ?_⟩
      · rw [List.mem_append, List.mem_singleton] at hc
        rcases hc with hc | rfl
        · exact ih.1 c hc
        · exact k1
      · dsimp only
        rw [List.filter_append, List.length_append]
        rcases k2 with k | k
        · rw [if_pos k, ih.2]; simp [Running, k]
        · rw [if_neg (by rw [k]; decide), ih.2]; simp [Running, k]
    | on i a =>
      simp only [step] at h
      split at h
      · cases h
      · rename_i c hc
        split at h
        · cases h
        · rename_i c' ha
          simp only [Option.some.injEq] at h
          subst h
          have hm : c ∈ s.calls := List.mem_of_getElem? hc
          have hi' := act_spec (ih.1 c hm) ha
          refine ⟨fun x hx => ?_, ?_⟩
          · rcases List.mem_or_eq_of_mem_set hx with hx | rfl
            · exact ih.1 x hx
            · exact hi'
          · obtain ⟨hlt, hget⟩ := List.getElem?_eq_some_iff.mp hc
            dsimp only
            have split1 : s.calls = s.calls.take i ++ c :: s.calls.drop (i + 1) := by
              rw [← hget, List.getElem_cons_drop, List.take_append_drop]
            have split2 : s.calls.set i c' = s.calls.take i ++ c' :: s.calls.drop (i + 1) := by
              rw [List.set_eq_take_append_cons_drop, if_pos hlt]
            have hcnt := ih.2
            rw [split1, List.filter_append, List.length_append, List.filter_cons] at hcnt
            rw [split2, List.filter_append, List.length_append, List.filter_cons]
            rcases run_spec ha with ⟨x1, x2⟩ | ⟨x1, x2⟩
            · have r1 : Running c = true := by simp [Running, x1]
              have r2 : ¬ Running c' = true := by simp [Running, x2]
              rw [if_pos r1, List.length_cons] at hcnt
              rw [if_pos ⟨x1, x2⟩, if_neg r2]
              omega
            · rw [if_neg x2, hcnt, x1]
              split <;> simp

/-- what holds of the result of a call at any time -/
structure Res (c : Call) : Prop where
  none : c.th = .none → ∀ r, c.co = .done r → r ≠ 0
  some : c.th ≠ .none → c.th ≠ .lookup → (c.ret = 0 ↔ (c.hasRes = true ∨ c.given = true))
  yield : ∀ r, c.co = .yield r → r = c.ret ∧ c.hasRes = false ∧ c.th ≠ .lookup
  pop : ∀ r, c.th ≠ .none → (c.co = .pop r ∨ c.co = .done r) → (r = EAI_SYSTEM ∧ c.given = false) ∨ (r = c.ret ∧ c.hasRes = false ∧ c.th ≠ .lookup)

theorem setup_res (e : Env) (n v h : Bool) : Res (setup e { node := n, service := v, hints := h }) := by
  have dead : ∀ (c : Call) r, c.th = .none → r ≠ 0 → Res { c with co := .done r } := by
    intro c r h1 h2
    refine ⟨fun _ r' e => ?_, fun e => absurd h1 e, fun r e => (by cases e), fun r e => absurd h1 e⟩
    injection e with e; rw [← e]; exact h2
  unfold setup
  dsimp only
  have hx : (argsNew e { node := n, service := v, hints := h }).2.th = .none := by
    rcases argsNew_spec e n v h with k | ⟨n', v', h', k⟩ <;> rw [k]
  generalize (argsNew e { node := n, service := v, hints := h }) = a at hx
  split
  · exact dead _ _ hx (by decide)
  · split
    · exact dead _ _ ((argsFree_th _).trans hx) (by decide)
    · split
      · exact dead _ _ ((argsFree_th _).trans hx) (by decide)
      · split
        · exact dead _ _ ((argsFree_th _).trans hx) (by decide)
        · exact ⟨fun e => (by cases e), fun _ e => absurd rfl e, fun r e => (by cases e), fun r _ e => by rcases e with e | e <;> cases e⟩

theorem act_res {c c' : Call} {a : Act} (hi : Inv c) (hr : Res c) (h : act c a = some c') : Res c' := by
  have usage : ∀ o, ∃ f, use o c = { c with fault := f } := by
    intro o; unfold use; split
    · exact ⟨c.fault, rfl⟩
    · exact ⟨true, rfl⟩
  have usage2 : ∀ o o', ∃ f, use o (use o' c) = { c with fault := f } := by
    intro o o'; obtain ⟨f, hf⟩ := usage o'
    rw [hf]; unfold use; split
    · exact ⟨f, rfl⟩
    · exact ⟨true, rfl⟩
  cases a with
  | readOk =>
    simp only [act] at h
    split at h
    · rename_i hc
      obtain ⟨f, hf⟩ := usage2 .fd0 .args
      rw [hf] at h
      cases h
      have hno : c.th ≠ .none := fun e => by obtain ⟨⟨r, k⟩, _⟩ := hi.none e; rw [hc.1] at k; cases k
      have hlk : c.th ≠ .lookup := fun e => by have := (hi.early (.inl e)).1; omega
      refine ⟨fun e => absurd e hno, fun _ _ => ?_, fun r e => ⟨by injection e with e; exact e.symm, rfl, hlk⟩, fun r _ e => by rcases e with e | e <;> cases e⟩
      have := hr.some hno hlk
      rw [hi.wait hc.1] at this
      simpa using this
    · cases h
  | readErr =>
    simp only [act] at h
    split at h
    · rename_i hc
      obtain ⟨f, hf⟩ := usage2 .fd0 .args
      rw [hf] at h
      cases h
      refine ⟨fun _ r e => (by cases e), hr.some, fun r e => (by cases e), fun r _ e => .inl ?_⟩
      rcases e with e | e
      · injection e with e; exact ⟨e.symm, hi.wait hc⟩
      · cases e
    · cases h
  | exit =>
    have fin : ∀ f, Res { c with returned := true, fault := f, co := .exited } := by
      intro f
      exact ⟨fun _ r e => (by cases e), hr.some, fun r e => (by cases e), fun r _ e => by rcases e with e | e <;> cases e⟩
    simp only [act] at h
    split at h
    · obtain ⟨f, hf⟩ := usage2 .fd0 .args
      rw [hf, cleanup] at h
      simp only [use] at h
      split at h <;> (cases h; exact fin _)
    · rw [cleanup] at h
      obtain ⟨f, hf⟩ := usage .args
      rw [hf] at h
      cases h
      exact fin _
    · cases h
  | resumed =>
    simp only [act] at h
    split at h
    · rename_i r hc
      cases h
      refine ⟨fun _ r e => (by cases e), hr.some, fun r e => (by cases e), fun r' _ e => .inr ?_⟩
      rcases e with e | e
      · injection e with e; rw [← e]; exact hr.yield r hc
      · cases e
    · cases h
  | pop =>
    simp only [act] at h
    split at h
    · rename_i r hc
      rw [cleanup] at h
      obtain ⟨f, hf⟩ := usage .args
      rw [hf] at h
      cases h
      have hno : c.th ≠ .none := fun e => by obtain ⟨⟨r, k⟩, _⟩ := hi.none e; rw [hc] at k; cases k
      refine ⟨fun e => absurd e hno, hr.some, fun r e => (by cases e), fun r' _ e => ?_⟩
      rcases e with e | e
      · cases e
      · injection e with e; rw [← e]; exact hr.pop r hno (.inl hc)
    · cases h
  | looked ret errnum =>
    simp only [act] at h
    split at h
    · rename_i hc
      obtain ⟨e1, e2, e3⟩ := hi.early (.inl hc)
      have hres := hi.look hc
      have hno : c.th ≠ .none := by rw [hc]; decide
      have u : ∀ (b : Bool) o f, ∃ f', (if b = true then use o { c with fault := f } else { c with fault := f }) = { c with fault := f' } := by
        intro b o f
        cases b with
        | false => exact ⟨f, rfl⟩
        | true =>
          simp only [if_true, use]
          split
          · exact ⟨f, rfl⟩
          · exact ⟨true, rfl⟩
      obtain ⟨f, hf⟩ := usage .args
      rw [hf] at h
      dsimp only at h
      obtain ⟨f1, hf1⟩ := u c.hasNode .node f
      rw [hf1] at h
      dsimp only at h
      obtain ⟨f2, hf2⟩ := u c.hasService .service f1
      rw [hf2] at h
      dsimp only at h
      obtain ⟨f3, hf3⟩ := u c.hasHints .hints f2
      rw [hf3] at h
      have pop : ∀ r, (c.co = .pop r ∨ c.co = .done r) → r = EAI_SYSTEM ∧ c.given = false := by
        intro r e
        rcases hr.pop r hno e with k | k
        · exact k
        · exact absurd hc k.2.2
      split at h
      · rename_i h0
        cases h
        exact ⟨fun e => (by cases e), fun _ _ => ⟨fun _ => .inl rfl, fun _ => h0⟩, fun r e => absurd e (e3 r), fun r _ e => .inl (pop r e)⟩
      · rename_i h0
        cases h
        exact ⟨fun e => (by cases e), fun _ _ => ⟨fun e => absurd e h0, fun e => by simp [hres, e2] at e⟩, fun r e => absurd e (e3 r), fun r _ e => .inl (pop r e)⟩
    · cases h
  | thread =>
    have keep : ∀ c1 : Call, c1.co = c.co → c1.ret = c.ret → c1.hasRes = c.hasRes → c1.given = c.given → c.th ≠ .none → c.th ≠ .lookup → c1.th ≠ .none → c1.th ≠ .lookup → Res c1 := by
      intro c1 k1 k2 k3 k4 k5 k6 k7 k8
      refine ⟨fun e => absurd e k7, fun _ _ => by rw [k2, k3, k4]; exact hr.some k5 k6, fun r e => ?_, fun r _ e => ?_⟩
      · rw [k1] at e; rw [k2, k3]; exact ⟨(hr.yield r e).1, (hr.yield r e).2.1, k8⟩
      · rw [k1] at e; rw [k2, k3, k4]
        rcases hr.pop r k5 e with k | k
        · exact .inl k
        · exact .inr ⟨k.1, k.2.1, k8⟩
    simp only [act] at h
    split at h
    · rename_i hc
      obtain ⟨f, hf⟩ := usage2 .fd1 .args
      rw [hf] at h
      cases h
      exact keep _ rfl rfl rfl rfl (by rw [hc]; decide) (by rw [hc]; decide) (by simp) (by simp)
    · rename_i hc
      obtain ⟨f, hf⟩ := usage .args
      rw [hf] at h
      split at h <;> (cases h; exact keep _ rfl rfl rfl rfl (by rw [hc]; decide) (by rw [hc]; decide) (by simp [hc]) (by simp [hc]))
    · rename_i hc
      rw [argsFree_spec (hi.own (by rw [hc]; decide)) hi.one] at h
      cases h
      exact keep _ rfl rfl rfl rfl (by rw [hc]; decide) (by rw [hc]; decide) (by simp) (by simp)
    · rename_i hc
      cases h
      exact keep _ rfl rfl rfl rfl (by rw [hc]; decide) (by rw [hc]; decide) (by simp) (by simp)
    · cases h

theorem reach_res {s : S} (r : Reach s) : ∀ c ∈ s.calls, Res c := by
  induction r with
  | init => simp
  | @step s s' r a h ih =>
    cases a with
    | call n v hh e =>
      simp only [step, Option.some.injEq] at h
      subst h
      intro c hc
      rw [List.mem_append, List.mem_singleton] at hc
      rcases hc with hc | rfl
      · exact ih c hc
      · exact setup_res e n v hh
    | on i a =>
      simp only [step] at h
      split at h
      · cases h
      · rename_i c hc
        split at h
        · cases h
        · rename_i c' ha
          simp only [Option.some.injEq] at h
          subst h
          have hm : c ∈ s.calls := List.mem_of_getElem? hc
          intro x hx
          rcases List.mem_or_eq_of_mem_set hx with hx | rfl
          · exact ih x hx
          · exact act_res ((reach_inv r).1 c hm) (ih c hm) ha

end Neco.Gai
