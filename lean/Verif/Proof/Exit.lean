import Verif.Spec.Exit
/-! Lemmas for `Props/Exit.lean`. -/
namespace Neco.Exit

/-- `P a x` for every event `x` of the history and what came before it, `a`. -/
def Each (P : List Ev → Ev → Prop) (l : List Ev) : Prop := ∀ a x b, l = a ++ x :: b → P a x

theorem Each.nil {P} : Each P [] := by
  intro a x b h; cases a <;> cases h

theorem Each.snoc {P l e} (h : Each P l) (he : P l e) : Each P (l ++ [e]) := by
  intro a x b hb
  rcases List.eq_nil_or_concat b with rfl | ⟨b', y, rfl⟩
  · have := List.append_inj' hb rfl
    obtain ⟨rfl, h2⟩ := this; cases h2; exact he
  · rw [List.concat_eq_append, ← List.cons_append, ← List.append_assoc] at hb
    have := List.append_inj' hb rfl
    exact h a x b' this.1

/-- What holds of each event, given what came before it. -/
def P (a : List Ev) : Ev → Prop
  | .pushed _ h _ => (∀ f r, Ev.pushed f h r ∉ a) ∧ ∀ f h' r, Ev.pushed f h' r ∈ a → h' < h
  | .popped f h _ => (∃ r, Ev.pushed f h r ∈ a) ∧ ¬ Taken h a ∧
      ∀ f' h' r, Ev.pushed f' h' r ∈ a → h < h' → Taken h' a
  | .unwound h => (∃ f r, Ev.pushed f h r ∈ a) ∧ ¬ Taken h a ∧
      (∀ f' h' r, Ev.pushed f' h' r ∈ a → h < h' → Taken h' a) ∧ ∃ f w, Ev.exit f w ∈ a
  | .start h => Taken h a ∧ Ev.start h ∉ a ∧ ∃ f, Ev.pushed f h true ∈ a
  | .finish h => Ev.start h ∈ a ∧ Ev.finish h ∉ a
  | .act f => ∀ a1 g w a2, a = a1 ++ .exit g w :: a2 → Ev.start f ∈ a2
  | .exit _ w => w = .cancel → Ev.cancel ∈ a
  | .gone => (∀ f h r, Ev.pushed f h r ∈ a → Taken h a) ∧ (∀ f h, Ev.pushed f h true ∈ a →
      Ev.start h ∈ a ∨ ∃ f, Ev.popped f h false ∈ a) ∧
      ∀ a1 h a2, a = a1 ++ .start h :: a2 → Ev.finish h ∈ a2 ∨ ∃ f w, Ev.exit f w ∈ a2
  | .woke _ => Ev.gone ∈ a
  | _ => True

/-- The activations that control can return to: those above the last `coexit`. -/
def live : List Frame → List (Nat × Nat)
  | .user f n :: t => (f, n) :: live t
  | _ => []

/-- The open pushes of those. -/
def opens (l : List (Nat × Nat)) : List Nat := l.flatMap fun p => List.replicate p.2 p.1

structure Inv (log : List Ev) (chain : List Rec) (nx : Nat) (frames : List Frame) (canceled : Bool) :
    Prop where
  each : Each P log
  next : ∀ f h r, Ev.pushed f h r ∈ log → 0 < h ∧ h < nx
  next0 : 0 < nx
  sorted : chain.Pairwise fun x y => y.id < x.id
  chained : ∀ r ∈ chain, Ev.pushed r.owner r.id r.routine ∈ log ∧ ¬ Taken r.id log
  taken : ∀ f h r, Ev.pushed f h r ∈ log → Taken h log ∨ ∃ x ∈ chain, x.id = h
  own : ∃ rest, chain.map Rec.owner = opens (live frames) ++ rest ∧ (.exit ∉ frames → rest = [])
  done : ∀ f h, Ev.pushed f h true ∈ log → Taken h log →
    Ev.start h ∈ log ∨ ∃ f, Ev.popped f h false ∈ log
  started : ∀ h, Ev.start h ∈ log → Taken h log
  fin : ∀ a h b, log = a ++ .start h :: b → Ev.finish h ∈ b ∨ (∃ f w, Ev.exit f w ∈ b) ∨
    h ∈ (live frames).map Prod.fst
  liveStart : ∀ f ∈ (live frames).map Prod.fst, ∀ a g w b, log = a ++ .exit g w :: b → Ev.start f ∈ b
  liveRun : ∀ f ∈ (live frames).map Prod.fst, Ev.finish f ∉ log ∧ (f ≠ 0 → Ev.start f ∈ log)
  nodup : ((live frames).map Prod.fst).Nodup
  takenPos : ¬ Taken 0 log
  base : ∀ f n, frames.getLast? = some (.user f n) → f = 0
  exited : .exit ∈ frames → ∃ f w, Ev.exit f w ∈ log
  cancel : canceled = true → Ev.cancel ∈ log

theorem split_snoc {l a b : List Ev} {e x : Ev} (h : l ++ [e] = a ++ x :: b) :
    (b = [] ∧ x = e ∧ a = l) ∨ ∃ b', b = b' ++ [e] ∧ l = a ++ x :: b' := by
  rcases List.eq_nil_or_concat b with rfl | ⟨b', y, rfl⟩
  · have := List.append_inj' h rfl
    obtain ⟨rfl, h2⟩ := this; cases h2; exact .inl ⟨rfl, rfl, rfl⟩
  · rw [List.concat_eq_append, ← List.cons_append, ← List.append_assoc] at h
    have := List.append_inj' h rfl
    have h2 := this.2; cases h2
    exact .inr ⟨b', by rw [List.concat_eq_append], this.1⟩

theorem taken_snoc {h : Nat} {l : List Ev} {e : Ev} :
    Taken h (l ++ [e]) ↔ Taken h l ∨ (∃ f x, e = .popped f h x) ∨ e = .unwound h := by
  unfold Taken
  simp only [List.mem_append, List.mem_singleton]
  constructor
  · rintro (⟨f, x, h | h⟩ | h | h)
    · exact .inl (.inl ⟨f, x, h⟩)
    · exact .inr (.inl ⟨f, x, h.symm⟩)
    · exact .inl (.inr h)
    · exact .inr (.inr h.symm)
  · rintro ((⟨f, x, h⟩ | h) | ⟨f, x, h⟩ | h)
    · exact .inl ⟨f, x, .inl h⟩
    · exact .inr (.inl h)
    · exact .inl ⟨f, x, .inr h.symm⟩
    · exact .inr (.inr h.symm)

/-- The events that do not touch the chain or the stack. -/
def neutral : Ev → Bool
  | .act _ | .cancel | .join _ | .leave _ | .gone | .woke _ | .dead => true
  | _ => false

theorem Inv.neutral {l ch n fr c} (I : Inv l ch n fr c) {e c'} (he : neutral e = true) (hp : P l e)
    (hc : c' = true → Ev.cancel ∈ l ++ [e]) : Inv (l ++ [e]) ch n fr c' := by
  have tk : ∀ h, Taken h (l ++ [e]) ↔ Taken h l := by
    intro h; rw [taken_snoc]
    constructor
    · rintro (h | ⟨f, x, rfl⟩ | rfl)
      · exact h
      · cases he
      · cases he
    · exact .inl
  have mem : ∀ x, Exit.neutral x = false → (x ∈ l ++ [e] ↔ x ∈ l) := by
    intro x hx; simp only [List.mem_append, List.mem_singleton]
    constructor
    · rintro (h | rfl)
      · exact h
      · rw [he] at hx; cases hx
    · exact .inl
  constructor
  · exact I.each.snoc hp
  · intro f h r; rw [mem _ rfl]; exact I.next f h r
  · exact I.next0
  · exact I.sorted
  · intro r hr; rw [mem _ rfl, tk]; exact I.chained r hr
  · intro f h r; rw [mem _ rfl, tk]; exact I.taken f h r
  · exact I.own
  · intro f h; rw [mem _ rfl, tk, mem _ rfl]; simp only [mem (.popped _ _ _) rfl]; exact I.done f h
  · intro h; rw [mem _ rfl, tk]; exact I.started h
  · intro a h b hb
    rcases split_snoc hb with ⟨_, rfl, _⟩ | ⟨b', rfl, hb2⟩
    · cases he
    · rcases I.fin a h b' hb2 with h | ⟨f, w, h⟩ | h
      · exact .inl (List.mem_append_left _ h)
      · exact .inr (.inl ⟨f, w, List.mem_append_left _ h⟩)
      · exact .inr (.inr h)
  · intro f hf a g w b hb
    rcases split_snoc hb with ⟨_, rfl, _⟩ | ⟨b', rfl, hb2⟩
    · cases he
    · exact List.mem_append_left _ (I.liveStart f hf a g w b' hb2)
  · intro f hf; rw [mem _ rfl, mem _ rfl]; exact I.liveRun f hf
  · exact I.nodup
  · rw [tk]; exact I.takenPos
  · exact I.base
  · intro h; obtain ⟨f, w, h⟩ := I.exited h; exact ⟨f, w, List.mem_append_left _ h⟩
  · exact hc

theorem Inv.act {l ch n f k t c} (I : Inv l ch n (.user f k :: t) c) {c'} (hc : c' = true → c = true) :
    Inv (l ++ [.act f]) ch n (.user f k :: t) c' :=
  I.neutral rfl (fun a1 g w a2 h => I.liveStart f (by simp [live]) a1 g w a2 h)
    (fun h => List.mem_append_left _ (I.cancel (hc h)))

theorem Inv.push {l ch n f k t c} (I : Inv l ch n (.user f k :: t) c) (r : Bool) :
    Inv (l ++ [.pushed f n r]) (⟨n, r, f⟩ :: ch) (n + 1) (.user f (k + 1) :: t) c := by
  have tk : ∀ h, Taken h (l ++ [.pushed f n r]) ↔ Taken h l := by
    intro h; rw [taken_snoc]; simp
  have fresh : ¬ Taken n l := by
    rintro (⟨g, e, h⟩ | h)
    · obtain ⟨a, b, rfl⟩ := List.append_of_mem h
      obtain ⟨⟨r', h'⟩, _⟩ := I.each _ _ _ rfl
      exact Nat.lt_irrefl _ (I.next _ _ _ (List.mem_append_left _ h')).2
    · obtain ⟨a, b, rfl⟩ := List.append_of_mem h
      obtain ⟨⟨g, r', h'⟩, _⟩ := I.each _ _ _ rfl
      exact Nat.lt_irrefl _ (I.next _ _ _ (List.mem_append_left _ h')).2
  constructor
  · refine I.each.snoc ⟨?_, ?_⟩
    · intro f' r' h; exact Nat.lt_irrefl _ (I.next _ _ _ h).2
    · intro f' h' r' h; exact (I.next _ _ _ h).2
  · intro f' h' r' h
    simp only [List.mem_append, List.mem_singleton] at h
    rcases h with h | h
    · have := I.next _ _ _ h; omega
    · cases h; exact ⟨I.next0, Nat.lt_succ_self _⟩
  · omega
  · refine List.pairwise_cons.2 ⟨?_, I.sorted⟩
    intro x hx; exact (I.next _ _ _ (I.chained x hx).1).2
  · intro x hx
    rw [tk]
    rcases List.mem_cons.1 hx with rfl | hx
    · exact ⟨by simp, fresh⟩
    · exact ⟨List.mem_append_left _ (I.chained x hx).1, (I.chained x hx).2⟩
  · intro f' h' r' h
    rw [tk]
    simp only [List.mem_append, List.mem_singleton] at h
    rcases h with h | h
    · rcases I.taken _ _ _ h with h | ⟨x, hx, h⟩
      · exact .inl h
      · exact .inr ⟨x, List.mem_cons_of_mem _ hx, h⟩
    · cases h; exact .inr ⟨_, List.mem_cons_self, rfl⟩
  · obtain ⟨rest, h, h2⟩ := I.own
    refine ⟨rest, ?_, ?_⟩
    · simp only [List.map_cons, h, live, opens, List.flatMap_cons, List.replicate_succ, List.cons_append]
    · intro h; apply h2; simpa using h
  · intro f' h'; rw [tk]
    simp only [List.mem_append, List.mem_singleton, reduceCtorEq, or_false]
    rintro (h | h) ht
    · exact I.done _ _ h ht
    · cases h; exact absurd ht fresh
  · intro h; rw [tk]
    simp only [List.mem_append, List.mem_singleton, reduceCtorEq, or_false]
    exact I.started h
  · intro a h b hb
    rcases split_snoc hb with ⟨_, h, _⟩ | ⟨b', rfl, hb2⟩
    · cases h
    · rcases I.fin a h b' hb2 with h | ⟨f, w, h⟩ | h
      · exact .inl (List.mem_append_left _ h)
      · exact .inr (.inl ⟨f, w, List.mem_append_left _ h⟩)
      · exact .inr (.inr (by simpa [live] using h))
  · intro f' hf a g w b hb
    rcases split_snoc hb with ⟨_, h, _⟩ | ⟨b', rfl, hb2⟩
    · cases h
    · exact List.mem_append_left _ (I.liveStart f' (by simpa [live] using hf) a g w b' hb2)
  · intro f' hf
    simp only [List.mem_append, List.mem_singleton, reduceCtorEq, or_false]
    exact I.liveRun f' (by simpa [live] using hf)
  · simpa [live] using I.nodup
  · rw [tk]; exact I.takenPos
  · intro f' n' h
    cases t with
    | nil =>
      simp only [List.getLast?_singleton, Option.some.injEq, Frame.user.injEq] at h
      obtain ⟨rfl, _⟩ := h
      exact I.base f k (by simp)
    | cons y t => rw [List.getLast?_cons_cons] at h; exact I.base f' n' (by rw [List.getLast?_cons_cons]; exact h)
  · intro h
    obtain ⟨f, w, h⟩ := I.exited (by simpa using h)
    exact ⟨f, w, List.mem_append_left _ h⟩
  · intro h; exact List.mem_append_left _ (I.cancel h)

/-- What comes off the chain is what was pushed last of what is on it. -/
theorem Inv.head {l r ch n fr c} (I : Inv l (r :: ch) n fr c) :
    Ev.pushed r.owner r.id r.routine ∈ l ∧ ¬ Taken r.id l ∧ 0 < r.id ∧ Ev.start r.id ∉ l ∧
    (∀ f' h' r', Ev.pushed f' h' r' ∈ l → r.id < h' → Taken h' l) ∧
    (∀ x ∈ ch, x.id < r.id) := by
  have h1 := I.chained r List.mem_cons_self
  have hs := List.pairwise_cons.1 I.sorted
  refine ⟨h1.1, h1.2, (I.next _ _ _ h1.1).1, fun h => h1.2 (I.started _ h), ?_, hs.1⟩
  intro f' h' r' h hlt
  rcases I.taken _ _ _ h with h | ⟨x, hx, h⟩
  · exact h
  · rcases List.mem_cons.1 hx with rfl | hx
    · omega
    · have := hs.1 x hx; omega

/-- A record came off without its routine being called. -/
theorem Inv.drop {l r ch n fr c} (I : Inv l (r :: ch) n fr c) {e fr'} (he : P l e)
    (hk : (∃ f x, e = .popped f r.id x ∧ (x && r.routine) = false) ∨ (e = .unwound r.id ∧ r.routine = false))
    (hl : (live fr').map Prod.fst = (live fr).map Prod.fst)
    (ho : ∃ rest, ch.map Rec.owner = opens (live fr') ++ rest ∧ (.exit ∉ fr' → rest = []))
    (hb : ∀ f n, fr'.getLast? = some (.user f n) → f = 0) (hx : .exit ∈ fr' → .exit ∈ fr) :
    Inv (l ++ [e]) ch n fr' c := by
  obtain ⟨h1, h2, h3, h4, h5, h6⟩ := I.head
  have tk : ∀ h, Taken h (l ++ [e]) ↔ Taken h l ∨ h = r.id := by
    intro h; rw [taken_snoc]
    rcases hk with ⟨f, x, rfl, _⟩ | ⟨rfl, _⟩
    · simp; constructor
      · rintro (h | h) <;> simp [h]
      · rintro (h | rfl) <;> simp [*]
    · simp; constructor
      · rintro (h | h) <;> simp [h]
      · rintro (h | rfl) <;> simp [*]
  have mem : ∀ x, (∀ f h y, x ≠ .popped f h y) → (∀ h, x ≠ .unwound h) → (x ∈ l ++ [e] ↔ x ∈ l) := by
    intro x hx hy; simp only [List.mem_append, List.mem_singleton]
    constructor
    · rintro (h | rfl)
      · exact h
      · rcases hk with ⟨f, x, rfl, _⟩ | ⟨rfl, _⟩
        · exact absurd rfl (hx _ _ _)
        · exact absurd rfl (hy _)
    · exact .inl
  constructor
  · exact I.each.snoc he
  · intro f h r'; rw [mem _ (by simp) (by simp)]; exact I.next f h r'
  · exact I.next0
  · exact (List.pairwise_cons.1 I.sorted).2
  · intro x hx
    rw [mem _ (by simp) (by simp), tk]
    have := I.chained x (List.mem_cons_of_mem _ hx)
    have h6 := h6 x hx
    exact ⟨this.1, fun h => h.elim this.2 (by omega)⟩
  · intro f h r'; rw [mem _ (by simp) (by simp), tk]
    intro h
    rcases I.taken _ _ _ h with h | ⟨x, hx, h⟩
    · exact .inl (.inl h)
    · rcases List.mem_cons.1 hx with rfl | hx
      · exact .inl (.inr h.symm)
      · exact .inr ⟨x, hx, h⟩
  · exact ho
  · intro f h; rw [mem _ (by simp) (by simp), tk]
    rintro hp (ht | rfl)
    · rcases I.done _ _ hp ht with h | ⟨f, h⟩
      · exact .inl (List.mem_append_left _ h)
      · exact .inr ⟨f, List.mem_append_left _ h⟩
    · have hr : r.routine = true := by
        obtain ⟨a, b, hab⟩ := List.append_of_mem hp
        cases hr : r.routine
        · rw [hr] at h1
          rw [hab, List.mem_append, List.mem_cons] at h1
          rcases h1 with h1 | h1 | h1
          · exact absurd h1 ((I.each _ _ _ hab).1 _ _)
          · cases h1
          · obtain ⟨b1, b2, rfl⟩ := List.append_of_mem h1
            have := (I.each (a ++ .pushed f r.id true :: b1) (.pushed r.owner r.id false) b2 (by simp [hab])).1
            exact absurd (by simp) (this f true)
        · rfl
      rcases hk with ⟨g, x, rfl, hk⟩ | ⟨_, hk⟩
      · rw [hr, Bool.and_true] at hk; subst hk
        exact .inr ⟨g, by simp⟩
      · rw [hr] at hk; cases hk
  · intro h; rw [mem _ (by simp) (by simp), tk]
    exact fun h => .inl (I.started _ h)
  · intro a h b hb
    rcases split_snoc hb with ⟨_, h', _⟩ | ⟨b', rfl, hb2⟩
    · rcases hk with ⟨g, x, rfl, hk⟩ | ⟨rfl, hk⟩ <;> cases h'
    · rw [hl]
      rcases I.fin a h b' hb2 with h | ⟨f, w, h⟩ | h
      · exact .inl (List.mem_append_left _ h)
      · exact .inr (.inl ⟨f, w, List.mem_append_left _ h⟩)
      · exact .inr (.inr h)
  · intro f' hf a g w b hb
    rcases split_snoc hb with ⟨_, h', _⟩ | ⟨b', rfl, hb2⟩
    · rcases hk with ⟨g, x, rfl, hk⟩ | ⟨rfl, hk⟩ <;> cases h'
    · exact List.mem_append_left _ (I.liveStart f' (hl ▸ hf) a g w b' hb2)
  · intro f' hf
    rw [mem _ (by simp) (by simp), mem _ (by simp) (by simp)]
    exact I.liveRun f' (hl ▸ hf)
  · rw [hl]; exact I.nodup
  · rw [tk]; rintro (h | h)
    · exact I.takenPos h
    · omega
  · exact hb
  · intro h
    obtain ⟨f, w, h⟩ := I.exited (hx h)
    exact ⟨f, w, List.mem_append_left _ h⟩
  · intro h; exact List.mem_append_left _ (I.cancel h)

/-- A record came off and its routine is called. -/
theorem Inv.call {l r ch n fr c} (I : Inv l (r :: ch) n fr c) {e fr'} (he : P l e)
    (hk : (∃ f, e = .popped f r.id true) ∨ e = .unwound r.id) (hr : r.routine = true)
    (hl : (live fr').map Prod.fst = (live fr).map Prod.fst) (hne : fr' ≠ [])
    (ho : ∃ rest, ch.map Rec.owner = opens (live fr') ++ rest ∧ (.exit ∉ fr' → rest = []))
    (hb : ∀ f n, fr'.getLast? = some (.user f n) → f = 0) (hx : .exit ∈ fr' → .exit ∈ fr) :
    Inv (l ++ [e] ++ [.start r.id]) ch n (.user r.id 0 :: fr') c := by
  obtain ⟨h1, h2, h3, h4, h5, h6⟩ := I.head
  rw [hr] at h1
  have tk1 : ∀ h, Taken h (l ++ [e]) ↔ Taken h l ∨ h = r.id := by
    intro h; rw [taken_snoc]
    rcases hk with ⟨f, rfl⟩ | rfl
    · simp; constructor
      · rintro (h | h) <;> simp [h]
      · rintro (h | rfl) <;> simp [*]
    · simp; constructor
      · rintro (h | h) <;> simp [h]
      · rintro (h | rfl) <;> simp [*]
  have tk : ∀ h, Taken h (l ++ [e] ++ [.start r.id]) ↔ Taken h l ∨ h = r.id := by
    intro h; rw [taken_snoc, tk1]; simp
  have mem1 : ∀ x, (∀ f h y, x ≠ .popped f h y) → (∀ h, x ≠ .unwound h) → (x ∈ l ++ [e] ↔ x ∈ l) := by
    intro x hx hy; simp only [List.mem_append, List.mem_singleton]
    constructor
    · rintro (h | rfl)
      · exact h
      · rcases hk with ⟨f, rfl⟩ | rfl
        · exact absurd rfl (hx _ _ _)
        · exact absurd rfl (hy _)
    · exact .inl
  have mem : ∀ x, (∀ f h y, x ≠ .popped f h y) → (∀ h, x ≠ .unwound h) → (∀ h, x ≠ .start h) →
      (x ∈ l ++ [e] ++ [.start r.id] ↔ x ∈ l) := by
    intro x h1 h2 h3
    rw [List.mem_append, mem1 x h1 h2, List.mem_singleton]
    exact ⟨fun h => h.elim id (fun h => absurd h (h3 _)), .inl⟩
  constructor
  · refine (I.each.snoc he).snoc ⟨(tk1 _).2 (.inr rfl), ?_, r.owner, List.mem_append_left _ h1⟩
    rw [mem1 _ (by simp) (by simp)]; exact h4
  · intro f h r'; rw [mem _ (by simp) (by simp) (by simp)]; exact I.next f h r'
  · exact I.next0
  · exact (List.pairwise_cons.1 I.sorted).2
  · intro x hx
    rw [mem _ (by simp) (by simp) (by simp), tk]
    have := I.chained x (List.mem_cons_of_mem _ hx)
    have h6 := h6 x hx
    exact ⟨this.1, fun h => h.elim this.2 (by omega)⟩
  · intro f h r'; rw [mem _ (by simp) (by simp) (by simp), tk]
    intro h
    rcases I.taken _ _ _ h with h | ⟨x, hx, h⟩
    · exact .inl (.inl h)
    · rcases List.mem_cons.1 hx with rfl | hx
      · exact .inl (.inr h.symm)
      · exact .inr ⟨x, hx, h⟩
  · obtain ⟨rest, h, h'⟩ := ho
    exact ⟨rest, by simpa [live, opens] using h, fun h => h' (by simpa using h)⟩
  · intro f h; rw [mem _ (by simp) (by simp) (by simp), tk]
    rintro hp (ht | rfl)
    · rcases I.done _ _ hp ht with h | ⟨f, h⟩
      · exact .inl (by simp [h])
      · exact .inr ⟨f, by simp [h]⟩
    · exact .inl (by simp)
  · intro h; rw [tk]
    intro hm
    rw [List.mem_append, mem1 _ (by simp) (by simp), List.mem_singleton] at hm
    rcases hm with h | h
    · exact .inl (I.started _ h)
    · cases h; exact .inr rfl
  · intro a h b hb
    rcases split_snoc hb with ⟨_, h', _⟩ | ⟨b', rfl, hb2⟩
    · cases h'; exact .inr (.inr (by simp [live]))
    · rcases split_snoc hb2 with ⟨_, h', _⟩ | ⟨b', rfl, hb3⟩
      · rcases hk with ⟨g, rfl⟩ | rfl <;> cases h'
      rcases I.fin a h b' hb3 with h | ⟨f, w, h⟩ | h
      · exact .inl (by simp [h])
      · exact .inr (.inl ⟨f, w, by simp [h]⟩)
      · rw [← hl] at h; exact .inr (.inr (by simp only [live, List.map_cons]; exact List.mem_cons_of_mem _ h))
  · intro f' hf a g w b hb
    simp only [live, List.map_cons, hl] at hf
    rcases split_snoc hb with ⟨_, h', _⟩ | ⟨b', rfl, hb2⟩
    · cases h'
    · rcases List.mem_cons.1 hf with rfl | hf
      · simp
      · rcases split_snoc hb2 with ⟨_, h', _⟩ | ⟨b', rfl, hb3⟩
        · rcases hk with ⟨g, rfl⟩ | rfl <;> cases h'
        · have := I.liveStart f' hf a g w b' hb3
          simp [this]
  · intro f' hf
    simp only [live, List.map_cons, hl] at hf
    rw [mem _ (by simp) (by simp) (by simp)]
    rcases List.mem_cons.1 hf with rfl | hf
    · refine ⟨fun h => ?_, fun _ => by simp⟩
      obtain ⟨a, b, hab⟩ := List.append_of_mem h
      have := (I.each _ _ _ hab).1
      exact h4 (hab ▸ List.mem_append_left _ this)
    · have := I.liveRun f' hf
      exact ⟨this.1, fun h => by simp [this.2 h]⟩
  · simp only [live, List.map_cons, hl]
    refine List.nodup_cons.2 ⟨fun h => ?_, I.nodup⟩
    exact h4 ((I.liveRun _ h).2 (by omega))
  · rw [tk]; rintro (h | h)
    · exact I.takenPos h
    · omega
  · intro f' n' h
    cases fr' with
    | nil => exact absurd rfl hne
    | cons y t => rw [List.getLast?_cons_cons] at h; exact hb f' n' h
  · intro h
    obtain ⟨f, w, h⟩ := I.exited (hx (by simpa using h))
    exact ⟨f, w, by simp [h]⟩
  · intro h; simp [I.cancel h]

theorem Inv.exit {l ch n fr c} (I : Inv l ch n fr c) {f w c'} (hw : w = .cancel → Ev.cancel ∈ l)
    (hc : c' = true → Ev.cancel ∈ l) :
    Inv (l ++ [.exit f w]) ch n (.exit :: fr) c' := by
  have tk : ∀ h, Taken h (l ++ [.exit f w]) ↔ Taken h l := by intro h; rw [taken_snoc]; simp
  have mem : ∀ x, (∀ f w, x ≠ .exit f w) → (x ∈ l ++ [.exit f w] ↔ x ∈ l) := by
    intro x hx
    rw [List.mem_append, List.mem_singleton]
    exact ⟨fun h => h.elim id (fun h => absurd h (hx _ _)), .inl⟩
  constructor
  · exact I.each.snoc hw
  · intro f h r'; rw [mem _ (by simp)]; exact I.next f h r'
  · exact I.next0
  · exact I.sorted
  · intro x hx; rw [mem _ (by simp), tk]; exact I.chained x hx
  · intro f h r'; rw [mem _ (by simp), tk]; exact I.taken f h r'
  · exact ⟨_, rfl, fun h => absurd List.mem_cons_self h⟩
  · intro f' h; rw [mem _ (by simp), tk, mem _ (by simp)]; simp only [mem (.popped _ _ _) (by simp)]
    exact I.done f' h
  · intro h; rw [mem _ (by simp), tk]; exact I.started h
  · intro a h b hb
    rcases split_snoc hb with ⟨_, h', _⟩ | ⟨b', rfl, hb2⟩
    · cases h'
    · exact .inr (.inl ⟨f, w, by simp⟩)
  · intro f hf; simp [live] at hf
  · intro f hf; simp [live] at hf
  · simp [live]
  · rw [tk]; exact I.takenPos
  · intro f' n' h
    cases fr with
    | nil => cases h
    | cons y t => rw [List.getLast?_cons_cons] at h; exact I.base f' n' h
  · intro _; exact ⟨f, w, by simp⟩
  · intro h; exact List.mem_append_left _ (hc h)

theorem Inv.finish {l ch n f t c} (I : Inv l ch n (.user f 0 :: t) c) (ht : t ≠ [])
    (hf : Ev.start f ∈ l) : Inv (l ++ [.finish f]) ch n t c := by
  have tk : ∀ h, Taken h (l ++ [.finish f]) ↔ Taken h l := by intro h; rw [taken_snoc]; simp
  have mem : ∀ x, (∀ f, x ≠ .finish f) → (x ∈ l ++ [.finish f] ↔ x ∈ l) := by
    intro x hx
    rw [List.mem_append, List.mem_singleton]
    exact ⟨fun h => h.elim id (fun h => absurd h (hx _)), .inl⟩
  have nd : f ∉ (live t).map Prod.fst ∧ ((live t).map Prod.fst).Nodup := by
    have := I.nodup
    simp only [live, List.map_cons] at this
    exact List.nodup_cons.1 this
  have sub : ∀ x ∈ (live t).map Prod.fst, x ∈ (live (.user f 0 :: t)).map Prod.fst := by
    intro x hx; simp only [live, List.map_cons]; exact List.mem_cons_of_mem _ hx
  constructor
  · exact I.each.snoc ⟨hf, (I.liveRun f (by simp [live])).1⟩
  · intro f h r'; rw [mem _ (by simp)]; exact I.next f h r'
  · exact I.next0
  · exact I.sorted
  · intro x hx; rw [mem _ (by simp), tk]; exact I.chained x hx
  · intro f h r'; rw [mem _ (by simp), tk]; exact I.taken f h r'
  · obtain ⟨rest, h, h'⟩ := I.own
    exact ⟨rest, by simpa [live, opens] using h, fun h => h' (by simpa using h)⟩
  · intro f' h; rw [mem _ (by simp), tk, mem _ (by simp)]; simp only [mem (.popped _ _ _) (by simp)]
    exact I.done f' h
  · intro h; rw [mem _ (by simp), tk]; exact I.started h
  · intro a h b hb
    rcases split_snoc hb with ⟨_, h', _⟩ | ⟨b', rfl, hb2⟩
    · cases h'
    · rcases I.fin a h b' hb2 with h | ⟨f, w, h⟩ | h
      · exact .inl (List.mem_append_left _ h)
      · exact .inr (.inl ⟨f, w, List.mem_append_left _ h⟩)
      · simp only [live, List.map_cons] at h
        rcases List.mem_cons.1 h with rfl | h
        · exact .inl (by simp)
        · exact .inr (.inr h)
  · intro f' hf a g w b hb
    rcases split_snoc hb with ⟨_, h', _⟩ | ⟨b', rfl, hb2⟩
    · cases h'
    · exact List.mem_append_left _ (I.liveStart f' (sub _ hf) a g w b' hb2)
  · intro f' hf
    have := I.liveRun f' (sub _ hf)
    refine ⟨?_, fun h => List.mem_append_left _ (this.2 h)⟩
    rw [List.mem_append, List.mem_singleton]
    rintro (h | h)
    · exact this.1 h
    · cases h; exact nd.1 hf
  · exact nd.2
  · rw [tk]; exact I.takenPos
  · intro f' n' h
    cases t with
    | nil => exact absurd rfl ht
    | cons y t => exact I.base f' n' (by rw [List.getLast?_cons_cons]; exact h)
  · intro h
    obtain ⟨f, w, h⟩ := I.exited (by simp [h])
    exact ⟨f, w, List.mem_append_left _ h⟩
  · intro h; exact List.mem_append_left _ (I.cancel h)

theorem Inv.frames0 {l ch n f c} (I : Inv l ch n [.user f 0] c) : ch = [] ∧ Inv l ch n [] c := by
  obtain ⟨rest, h, h'⟩ := I.own
  have h0 : f = 0 := I.base f 0 (by simp)
  subst h0
  have hc : ch = [] := by
    rw [h' (by simp)] at h
    simpa [live, opens] using h
  subst hc
  refine ⟨rfl, ?_⟩
  constructor
  · exact I.each
  · exact I.next
  · exact I.next0
  · exact I.sorted
  · exact I.chained
  · exact I.taken
  · exact ⟨[], rfl, fun _ => rfl⟩
  · exact I.done
  · exact I.started
  · intro a h b hb
    rcases I.fin a h b hb with h | h | h
    · exact .inl h
    · exact .inr (.inl h)
    · simp only [live, List.map_cons, List.map_nil, List.mem_singleton] at h
      subst h
      exact absurd (I.started 0 (by rw [hb]; simp)) I.takenPos
  · intro f hf; simp [live] at hf
  · intro f hf; simp [live] at hf
  · simp [live]
  · exact I.takenPos
  · intro f n h; cases h
  · intro h; cases h
  · exact I.cancel

def Ok (s : S) : Prop := Inv s.log s.chain s.next s.frames s.canceled

theorem Inv.wokes {ch n fr c} (ws : List Nat) : ∀ {l}, Inv l ch n fr c → Ev.gone ∈ l →
    Inv (l ++ ws.map .woke) ch n fr c := by
  induction ws with
  | nil => intro l I _; simpa using I
  | cons w ws ih =>
    intro l I hg
    have := ih (I.neutral (e := .woke w) (c' := c) rfl hg (fun h => List.mem_append_left _ (I.cancel h)))
      (List.mem_append_left _ hg)
    simpa using this

theorem ok_ending {s : S} (I : Ok s) (hc : s.chain = []) (hl : live s.frames = []) : Ok (ending s) := by
  unfold Ok at I
  have I1 : Inv (s.log ++ [.gone]) s.chain s.next s.frames s.canceled := by
    have hall : ∀ f h r, Ev.pushed f h r ∈ s.log → Taken h s.log := by
      intro f h r hp
      rcases I.taken f h r hp with h | ⟨x, hx, _⟩
      · exact h
      · rw [hc] at hx; cases hx
    refine I.neutral rfl ⟨hall, ?_, ?_⟩ (fun h => List.mem_append_left _ (I.cancel h))
    · intro f h hp; exact I.done f h hp (hall _ _ _ hp)
    · intro a1 h a2 ha
      rcases I.fin a1 h a2 ha with h | h | h
      · exact .inl h
      · exact .inr h
      · rw [hl] at h; cases h
  have I2 := I1.wokes s.waiters (by simp)
  unfold ending Ok
  dsimp only
  split
  · exact I2.neutral rfl trivial (fun h => List.mem_append_left _ (I2.cancel h))
  · exact I2

theorem ok_unwind {ch : List Rec} : ∀ {s : S}, Inv s.log ch s.next s.frames s.canceled → ∀ t, s.frames = .exit :: t →
    Ok (unwind ch s) := by
  induction ch with
  | nil =>
    intro s I t ht
    exact ok_ending (s := { s with chain := [] }) I rfl (by simp [ht, live])
  | cons r ch ih =>
    intro s I t ht
    obtain ⟨h1, h2, h3, h4, h5, h6⟩ := I.head
    have hp : P s.log (.unwound r.id) :=
      ⟨⟨_, _, h1⟩, h2, h5, I.exited (by rw [ht]; exact List.mem_cons_self)⟩
    have ho : ∃ rest, ch.map Rec.owner = opens (live s.frames) ++ rest ∧ (.exit ∉ s.frames → rest = []) :=
      ⟨_, by rw [ht]; rfl, fun h => absurd (by rw [ht]; exact List.mem_cons_self) h⟩
    unfold unwind
    split
    · rename_i hr
      exact I.call hp (.inr rfl) hr rfl (by rw [ht]; simp) ho I.base id
    · rename_i hr
      refine ih (s := { s with log := s.log ++ [.unwound r.id] }) ?_ t ht
      exact I.drop hp (.inr ⟨rfl, by simpa using hr⟩) rfl ho I.base id

theorem ok_coexit {s : S} (I : Ok s) {w} (hw : w = .cancel → Ev.cancel ∈ s.log) : Ok (coexit w s) := by
  unfold coexit
  exact ok_unwind (s := { s with frames := .exit :: s.frames, log := s.log ++ [.exit (topId s.frames) w] })
    (Inv.exit I hw I.cancel) s.frames rfl

theorem ok_init : Ok init := by
  refine ⟨Each.nil, ?_, by decide, .nil, ?_, ?_, ⟨[], rfl, fun _ => rfl⟩, ?_, ?_, ?_, ?_, ?_, ?_, ?_, ?_, ?_, ?_⟩
  · intro f h r hm; cases hm
  · intro r hm; cases hm
  · intro f h r hm; cases hm
  · intro f h hm; cases hm
  · intro h hm; cases hm
  · intro a h b hb; cases a <;> cases hb
  · intro f _ a g w b hb; cases a <;> cases hb
  · intro f hf
    simp only [init, live, List.map_cons, List.map_nil, List.mem_singleton] at hf
    exact ⟨fun h => (nomatch h), fun h => absurd hf h⟩
  · decide
  · rintro (⟨_, _, h⟩ | h) <;> cases h
  · intro f n h; simp only [init, List.getLast?_singleton, Option.some.injEq, Frame.user.injEq] at h; exact h.1.symm
  · intro h; exact absurd h (by decide)
  · intro h; cases h

theorem live_base : ∀ {fr : List Frame}, fr ≠ [] → Frame.exit ∉ fr →
    (∀ f n, fr.getLast? = some (.user f n) → f = 0) → 0 ∈ (live fr).map Prod.fst
  | [], h, _, _ => absurd rfl h
  | .exit :: _, _, h, _ => absurd List.mem_cons_self h
  | [.user f n], _, _, hb => by
    have := hb f n (by simp); subst this; simp [live]
  | .user f n :: y :: t, _, h, hb => by
    rw [live, List.map_cons]
    exact List.mem_cons_of_mem _ (live_base (by simp) (fun h' => h (List.mem_cons_of_mem _ h'))
      (fun f' n' h => hb f' n' (by rw [List.getLast?_cons_cons]; exact h)))

theorem ok_step {o : Op} {s s' : S} (I : Ok s) (h : step o s = some s') : Ok s' := by
  obtain ⟨frames, chain, next, canceled, async, inMap, waiters, phase, log⟩ := s
  unfold Ok at I
  dsimp only at I
  unfold step at h
  dsimp only at h
  split at h
  · cases h; exact (I.act id).push _
  · rename_i e f n t
    split at h
    · cases h
    · rename_i r c
      have I' := I.act (c' := canceled) id
      obtain ⟨h1, h2, h3, h4, h5, h6⟩ := I'.head
      obtain ⟨rest, hr, hr'⟩ := I'.own
      simp only [List.map_cons, live, opens, List.flatMap_cons, List.replicate_succ, List.cons_append,
        List.cons.injEq] at hr
      have hown := hr.1
      have ho : ∃ rest, c.map Rec.owner = opens (live (.user f n :: t)) ++ rest ∧
          (.exit ∉ (Frame.user f n :: t) → rest = []) :=
        ⟨rest, by simp only [live, opens, List.flatMap_cons]; exact hr.2, fun h => hr' (by simpa using h)⟩
      have hp : P (log ++ [.act f]) (.popped f r.id e) := ⟨⟨_, hown ▸ h1⟩, h2, h5⟩
      have hb : ∀ f' n', (Frame.user f n :: t).getLast? = some (.user f' n') → f' = 0 := by
        intro f' n' h
        cases t with
        | nil =>
          simp only [List.getLast?_singleton, Option.some.injEq, Frame.user.injEq] at h
          obtain ⟨rfl, _⟩ := h
          exact I.base f (n + 1) (by simp)
        | cons y t => rw [List.getLast?_cons_cons] at h; exact I.base f' n' (by rw [List.getLast?_cons_cons]; exact h)
      split at h
      · rename_i he
        simp only [Bool.and_eq_true] at he
        cases h
        refine I'.call hp (.inl ⟨f, by rw [he.1]⟩) he.2 rfl (by simp) ho hb (by simp)
      · rename_i he
        cases h
        exact I'.drop hp (.inl ⟨f, e, rfl, by simpa using he⟩) rfl ho hb (by simp)
  · cases h
    exact ok_coexit (s := { frames := _, chain, next, canceled, async, inMap, waiters, phase := _, log := log ++ [.act _] })
      (I.act id) (by intro h; cases h)
  · rename_i f t
    split at h
    · cases h
      have I' := I.act (c' := canceled) id
      obtain ⟨hc, I2⟩ := I'.frames0
      exact ok_ending (s := { frames := [], chain, next, canceled, async, inMap, waiters, phase := _, log := log ++ [.act f] })
        I2 hc rfl
    · rename_i u
      cases h
      have I' := I.act (c' := canceled) id
      have hs : Ev.start f ∈ log := by
        obtain ⟨g, w, hg⟩ := I.exited (by simp)
        obtain ⟨a, b, rfl⟩ := List.append_of_mem hg
        exact List.mem_append_right _ (List.mem_cons_of_mem _ (I.liveStart f (by simp [live]) a g w b rfl))
      exact ok_unwind (s := { frames := _, chain, next, canceled, async, inMap, waiters, phase := _, log := log ++ [.act f] ++ [.finish f] })
        (I'.finish (by simp) (List.mem_append_left _ hs)) u rfl
    · rename_i g k u
      cases h
      have I' := I.act (c' := canceled) id
      refine I'.finish (by simp) (List.mem_append_left _ ?_)
      by_cases hx : Frame.exit ∈ u
      · obtain ⟨g', w, hg⟩ := I.exited (by simp [hx])
        obtain ⟨a, b, rfl⟩ := List.append_of_mem hg
        exact List.mem_append_right _ (List.mem_cons_of_mem _ (I.liveStart f (by simp [live]) a g' w b rfl))
      · refine (I.liveRun f (by simp [live])).2 ?_
        rintro rfl
        have h0 := live_base (fr := .user g k :: u) (by simp) (by simp [hx])
          (fun f' n' h => I.base f' n' (by rw [List.getLast?_cons_cons]; exact h))
        have := I.nodup
        rw [live, List.map_cons] at this
        exact (List.nodup_cons.1 this).1 h0
  · cases h; exact I.act id
  · split at h
    · rename_i hc
      have I' := I.act (c' := false) (fun h => nomatch h)
      split at h
      · cases h
        exact ok_coexit (s := { frames := _, chain, next, canceled := false, async, inMap, waiters, phase := _, log := log ++ [.act _] })
          I' (fun _ => List.mem_append_left _ (I.cancel hc))
      · cases h; exact I'
    · cases h
  · cases h; exact I.act id
  · split at h
    · rename_i hc
      simp only [Bool.and_eq_true] at hc
      cases h
      exact ok_coexit (s := { frames, chain, next, canceled, async, inMap, waiters, phase := _, log })
        I (fun _ => I.cancel hc.1)
    · cases h; exact I
  · split at h
    · rename_i hc
      simp only [Bool.and_eq_true] at hc
      cases h
      exact ok_coexit (s := { frames, chain, next, canceled, async, inMap, waiters, phase := _, log })
        I (fun _ => I.cancel hc.1)
    · split at h
      · cases h; exact I.neutral rfl trivial (fun h => List.mem_append_left _ (I.cancel h))
      · cases h; exact I
  · split at h
    · cases h; exact I.neutral rfl trivial (by simp)
    · cases h
  · split at h
    · cases h; exact I.neutral rfl trivial (fun h => List.mem_append_left _ (I.cancel h))
    · cases h
  · split at h
    · cases h; exact I.neutral rfl trivial (fun h => List.mem_append_left _ (I.cancel h))
    · cases h
  · cases h

theorem ok_reach {s : S} (r : Reach s) : Ok s := by
  induction r with
  | init => exact ok_init
  | step o _ h ih => exact ok_step ih h

/-- Nothing is done by user code once the coroutine is gone. -/
def Q (a : List Ev) : Ev → Prop
  | .act _ | .cancel | .join _ | .start _ => Ev.gone ∉ a
  | .woke _ => Ev.dead ∉ a
  | .gone => a.count .gone ≤ 1 ∧ Ev.dead ∉ a
  | .dead => Ev.gone ∈ a ∧ Ev.dead ∉ a
  | _ => True

/-- Waiting for the end. -/
structure WI (log : List Ev) (inMap : Bool) (waiters : List Nat) (phase : Phase) (chain : List Rec) : Prop where
  each : Each Q log
  nodup : waiters.Nodup
  count : ∀ w, log.count (Ev.join w) = log.count (Ev.leave w) + log.count (Ev.woke w) + waiters.count w
  live : inMap = true → Ev.gone ∉ log ∧ Ev.dead ∉ log ∧ (phase = .run ∨ phase = .wait)
  over : inMap = false → waiters = [] ∧ chain = [] ∧ Ev.gone ∈ log ∧
    (phase = .dead ∧ Ev.dead ∈ log ∨ (∃ k, phase = .tail k) ∧ log.count Ev.gone = 1 ∧ Ev.dead ∉ log)

def W (s : S) : Prop := WI s.log s.inMap s.waiters s.phase s.chain

theorem WI.snoc {l ws p c} (I : WI l true ws p c) {e : Ev} {p' c'}
    (h1 : ∀ w, e ≠ .join w ∧ e ≠ .leave w ∧ e ≠ .woke w) (h2 : e ≠ .gone ∧ e ≠ .dead)
    (hp : p' = .run ∨ p' = .wait) : WI (l ++ [e]) true ws p' c' := by
  obtain ⟨hg, hd, _⟩ := I.live rfl
  constructor
  · refine I.each.snoc ?_
    cases e <;> simp_all [Q]
  · exact I.nodup
  · intro w
    have := I.count w
    have h1 := h1 w
    rw [List.count_append, List.count_append, List.count_append, List.count_singleton, List.count_singleton,
      List.count_singleton]
    simp only [beq_eq_false_iff_ne.2 h1.1, beq_eq_false_iff_ne.2 h1.2.1, beq_eq_false_iff_ne.2 h1.2.2]
    simpa using this
  · intro _
    refine ⟨?_, ?_, hp⟩
    · simp [hg, h2.1.symm]
    · simp [hd, h2.2.symm]
  · intro h; cases h

/-- The rest of a state does not matter here. -/
theorem WI.same {l ws p c} (I : WI l true ws p c) {p' c'} (hp : p' = .run ∨ p' = .wait) :
    WI l true ws p' c' :=
  ⟨I.each, I.nodup, I.count, fun h => ⟨(I.live h).1, (I.live h).2.1, hp⟩, fun h => nomatch h⟩

theorem count_wokes (ws : List Nat) (w : Nat) : (ws.map Ev.woke).count (.woke w) = ws.count w := by
  induction ws with
  | nil => rfl
  | cons x ws ih =>
    rw [List.map_cons, List.count_cons, List.count_cons, ih]
    simp only [beq_iff_eq, Ev.woke.injEq]

theorem count_wokes0 (ws : List Nat) (e : Ev) (h : ∀ w, e ≠ .woke w) : (ws.map Ev.woke).count e = 0 := by
  rw [List.count_eq_zero]
  intro hm
  obtain ⟨w, _, h'⟩ := List.mem_map.1 hm
  exact h w h'.symm

theorem Each.wokes {ws : List Nat} : ∀ {l}, Each Q l → Ev.dead ∉ l → Each Q (l ++ ws.map .woke) := by
  induction ws with
  | nil => intro l I _; simpa using I
  | cons w ws ih =>
    intro l I hd
    have := ih (I.snoc (e := .woke w) hd) (by simp [hd])
    simpa using this

theorem w_ending {s : S} (I : W s) (hc : s.chain = []) (hp : s.phase ≠ .dead) : W (ending s) := by
  have hd : Ev.dead ∉ s.log ∧ s.log.count .gone ≤ 1 := by
    cases hm : s.inMap
    · rcases (I.over hm).2.2.2 with h | h
      · exact absurd h.1 hp
      · exact ⟨h.2.2, by omega⟩
    · have := I.live hm
      exact ⟨this.2.1, by rw [List.count_eq_zero.2 this.1]; omega⟩
  have e1 : Each Q (s.log ++ [.gone]) := I.each.snoc ⟨hd.2, hd.1⟩
  have e2 : Each Q (s.log ++ [.gone] ++ s.waiters.map .woke) := e1.wokes (by simp [hd.1])
  have cnt : ∀ w, (s.log ++ [Ev.gone] ++ s.waiters.map Ev.woke).count (Ev.join w) =
      (s.log ++ [Ev.gone] ++ s.waiters.map Ev.woke).count (Ev.leave w) +
      (s.log ++ [Ev.gone] ++ s.waiters.map Ev.woke).count (Ev.woke w) := by
    intro w
    have := I.count w
    simp only [List.count_append, count_wokes, List.count_singleton]
    rw [count_wokes0 _ (.join w) (by simp), count_wokes0 _ (.leave w) (by simp)]
    simp
    omega
  unfold ending
  dsimp only
  split
  · rename_i hw
    refine ⟨e2.snoc ⟨by simp, by simp [hd.1]⟩, I.nodup, ?_, ?_, ?_⟩
    · intro w
      have := cnt w
      rw [List.count_append, List.count_append (a := Ev.leave w), List.count_append (a := Ev.woke w), this]
      simp [hw]
    · intro h; cases h
    · intro _; exact ⟨hw, hc, by simp, .inl ⟨rfl, by simp⟩⟩
  · rename_i hw
    have hm : s.inMap = true := by
      cases hm : s.inMap
      · exact absurd (I.over hm).1 hw
      · rfl
    refine ⟨e2, by simp, fun w => by simpa using cnt w, ?_, ?_⟩
    · intro h; cases h
    · intro _
      refine ⟨rfl, hc, by simp, .inr ⟨⟨1, rfl⟩, ?_, by simp [hd.1]⟩⟩
      rw [List.count_append, List.count_append, count_wokes0 _ .gone (by simp),
        List.count_eq_zero.2 (I.live hm).1]
      rfl

theorem w_unwind {ch : List Rec} : ∀ {s : S}, WI s.log s.inMap s.waiters s.phase ch → s.inMap = true →
    W (unwind ch s) := by
  induction ch with
  | nil =>
    intro s I hm
    have hp := (I.live hm).2.2
    exact w_ending (s := { s with chain := [] }) I rfl
      (fun h => by rcases hp with hp | hp <;> exact absurd (hp.symm.trans h) (by simp))
  | cons r ch ih =>
    intro s I hm
    have hp := (I.live hm).2.2
    rw [hm] at I
    unfold unwind
    split
    · show WI _ s.inMap _ _ _
      rw [hm]
      exact (I.snoc (c' := ch) (by simp) (by simp) hp).snoc (by simp) (by simp) (.inl rfl)
    · refine ih (s := { s with log := s.log ++ [.unwound r.id] }) ?_ hm
      show WI _ s.inMap _ _ _
      rw [hm]
      exact I.snoc (by simp) (by simp) hp

theorem w_coexit {s : S} (I : W s) (hp : s.phase ≠ .dead) {w} : W (coexit w s) := by
  unfold coexit
  rcases Bool.eq_false_or_eq_true s.inMap with hm | hm
  · refine w_unwind (s := { s with frames := .exit :: s.frames, log := s.log ++ [.exit (topId s.frames) w] }) ?_ hm
    unfold W at I
    have hp := (I.live hm).2.2
    rw [hm] at I
    show WI _ s.inMap _ _ _
    rw [hm]
    exact I.snoc (by simp) (by simp) hp
  · obtain ⟨hw, hc, hg, h⟩ := I.over hm
    rw [hc]
    rcases h with h | ⟨hk, h1, h2⟩
    · exact absurd h.1 hp
    refine w_ending (s := { s with chain := [], frames := .exit :: s.frames, log := s.log ++ [.exit (topId s.frames) w] }) ?_ rfl hp
    refine ⟨I.each.snoc trivial, I.nodup, ?_, ?_, ?_⟩
    · intro x
      have := I.count x
      simp only [List.count_append]
      simp [List.count_singleton]
      exact this
    · intro h; exact absurd (hm.symm.trans h) (by simp)
    · intro _
      refine ⟨hw, rfl, by simp [hg], .inr ⟨hk, ?_, by simp [h2]⟩⟩
      rw [List.count_append, h1]; rfl

theorem w_init : W init :=
  ⟨Each.nil, .nil, fun _ => rfl, fun _ => ⟨fun h => (nomatch h), fun h => (nomatch h), .inl rfl⟩,
    fun h => (nomatch h)⟩

theorem w_step {o : Op} {s s' : S} (O : Ok s) (I : W s) (h : step o s = some s') : W s' := by
  have hm : s.phase = .run ∨ s.phase = .wait → s.inMap = true := by
    intro hp
    cases hm : s.inMap
    · rcases (I.over hm).2.2.2 with h | ⟨⟨k, h⟩, _⟩ <;> rcases hp with hp | hp <;>
        exact absurd (hp.symm.trans (by first | exact h.1 | exact h)) (by simp)
    · rfl
  obtain ⟨frames, chain, next, canceled, async, inMap, waiters, phase, log⟩ := s
  unfold W at I
  dsimp only at hm I
  unfold step at h
  dsimp only at h
  split at h
  · have hm := hm (.inl rfl); subst hm
    cases h
    exact (I.snoc (c' := []) (p' := .run) (by simp) (by simp) (.inl rfl)).snoc (by simp) (by simp) (.inl rfl)
  · have hm := hm (.inl rfl); subst hm
    rename_i e f n t
    split at h
    · cases h
    · rename_i r c
      have I1 := (I.snoc (e := .act f) (c' := []) (p' := .run) (by simp) (by simp) (.inl rfl)).snoc
        (e := .popped f r.id e) (c' := c) (p' := .run) (by simp) (by simp) (.inl rfl)
      split at h
      · cases h; exact I1.snoc (by simp) (by simp) (.inl rfl)
      · cases h; exact I1
  · have hm := hm (.inl rfl); subst hm
    cases h
    refine w_coexit ?_ (by simp)
    exact WI.snoc I (by simp) (by simp) (.inl rfl)
  · have hm := hm (.inl rfl); subst hm
    rename_i f t
    have I1 := I.snoc (e := .act f) (c' := chain) (p' := .run) (by simp) (by simp) (.inl rfl)
    split at h
    · cases h
      unfold Ok at O
      exact w_ending I1 O.frames0.1 (by simp)
    · cases h
      refine w_unwind ?_ rfl
      exact I1.snoc (by simp) (by simp) (.inl rfl)
    · cases h
      exact I1.snoc (by simp) (by simp) (.inl rfl)
  · have hm := hm (.inl rfl); subst hm
    cases h; exact I.snoc (by simp) (by simp) (.inr rfl)
  · have hm := hm (.inl rfl); subst hm
    split at h
    · split at h
      · cases h
        refine w_coexit ?_ (by simp)
        exact WI.snoc I (by simp) (by simp) (.inl rfl)
      · cases h; exact I.snoc (by simp) (by simp) (.inl rfl)
    · cases h
  · have hm := hm (.inl rfl); subst hm
    cases h; exact I.snoc (by simp) (by simp) (.inl rfl)
  · have hm := hm (.inr rfl); subst hm
    split at h
    · cases h
      refine w_coexit ?_ (by simp)
      exact WI.same I (.inl rfl)
    · cases h; exact I.same (.inl rfl)
  · rename_i k
    split at h
    · cases h
      refine w_coexit ?_ (by simp)
      exact I
    · have hm' : inMap = false := by
        cases inMap
        · rfl
        · have := (I.live rfl).2.2; simp at this
      subst hm'
      obtain ⟨hw, hc, hg, h'⟩ := I.over rfl
      rcases h' with h' | ⟨_, h1, h2⟩
      · cases h'.1
      split at h
      · cases h
        refine ⟨I.each.snoc ⟨hg, h2⟩, I.nodup, ?_, ?_, ?_⟩
        · intro x
          have := I.count x
          simp only [List.count_append]
          simp [List.count_singleton]
          exact this
        · intro h; cases h
        · intro _
          exact ⟨hw, hc, List.mem_append_left _ hg, .inl ⟨rfl, by simp⟩⟩
      · cases h
        exact ⟨I.each, I.nodup, I.count, fun h => (nomatch h), fun _ => ⟨hw, hc, hg, .inr ⟨⟨_, rfl⟩, h1, h2⟩⟩⟩
  · have hm := hm (.inr rfl); subst hm
    split at h
    · cases h; exact I.snoc (by simp) (by simp) (.inr rfl)
    · cases h
  · rename_i w
    split at h
    · rename_i hc
      simp only [Bool.and_eq_true, Bool.not_eq_true', List.contains_eq_mem, decide_eq_false_iff_not] at hc
      obtain ⟨hg, hd, _⟩ := I.live hc.1
      cases h
      refine ⟨I.each.snoc hg, ?_, ?_, ?_, ?_⟩
      · exact List.nodup_append.2 ⟨I.nodup, by simp, by
          intro a ha b hb; rw [List.mem_singleton] at hb; subst hb; rintro rfl; exact hc.2 ha⟩
      · intro x
        have := I.count x
        simp only [List.count_append, List.count_singleton, beq_iff_eq, Ev.join.injEq, reduceCtorEq]
        simp
        omega
      · intro _; exact ⟨by simp [hg], by simp [hd], .inr rfl⟩
      · intro h; exact absurd (hc.1.symm.trans h) (by simp)
    · cases h
  · rename_i w
    split at h
    · rename_i hc
      simp only [List.contains_eq_mem, decide_eq_true_eq] at hc
      have hm := hm (.inr rfl); subst hm
      obtain ⟨hg, hd, _⟩ := I.live rfl
      cases h
      refine ⟨I.each.snoc trivial, I.nodup.erase _, ?_, ?_, ?_⟩
      · intro x
        have := I.count x
        have hpos : w = x → 0 < waiters.count x := by rintro rfl; exact List.count_pos_iff.2 hc
        simp only [List.count_append, List.count_singleton, beq_iff_eq, Ev.leave.injEq, reduceCtorEq,
          List.count_erase]
        by_cases hx : w = x
        · have := hpos hx; simp [hx]; omega
        · simp [hx]; omega
      · intro _; exact ⟨by simp [hg], by simp [hd], .inr rfl⟩
      · intro h; cases h
    · cases h
  · cases h

theorem w_reach {s : S} (r : Reach s) : W s := by
  induction r with
  | init => exact w_init
  | step o r h ih => exact w_step (ok_reach r) ih h

end Neco.Exit
