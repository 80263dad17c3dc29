import Verif.Spec.Args

/-! # Ownership of memory -/

namespace Neco.Args

/-- every block belongs to a control block in `A`, or is a channel that is referenced -/
structure Own (s : S) (A : List Nat) (ref : Nat → Nat) : Prop where
  flt : s.fault = false
  nd : A.Nodup
  isco : ∀ a ∈ A, ∃ c, s.heap a = some (.co c)
  len : ∀ a c, s.heap a = some (.co c) → c.aargv.length = 4
  st : ∀ a c, s.heap a = some (.co c) → s.heap c.stack = some .stack
  ar : ∀ a c p, s.heap a = some (.co c) → c.argv = .heap p → ∃ l, s.heap p = some (.args l)
  gn : ∀ a c g, s.heap a = some (.co c) → c.gen = some g → s.heap g = some (.chan (ref g + 1))
  ist : ∀ a b c d, s.heap a = some (.co c) → s.heap b = some (.co d) → c.stack = d.stack → a = b
  iar : ∀ a b c d p, s.heap a = some (.co c) → s.heap b = some (.co d) → c.argv = .heap p → d.argv = .heap p → a = b
  ign : ∀ a b c d g, s.heap a = some (.co c) → s.heap b = some (.co d) → c.gen = some g → d.gen = some g → a = b
  oco : ∀ a c, s.heap a = some (.co c) → a ∈ A
  ost : ∀ b, s.heap b = some .stack → ∃ a c, s.heap a = some (.co c) ∧ c.stack = b
  oar : ∀ b l, s.heap b = some (.args l) → ∃ a c, s.heap a = some (.co c) ∧ c.argv = .heap b
  och : ∀ g rc, s.heap g = some (.chan rc) → 0 < rc ∧ (rc = ref g ∨ rc = ref g + 1)
  ogn : ∀ g, s.heap g = some (.chan (ref g + 1)) → ∃ a c, s.heap a = some (.co c) ∧ c.gen = some g
  rf : ∀ g, 0 < ref g → ∃ rc, s.heap g = some (.chan rc)
  nx : ∀ b, s.next ≤ b → s.heap b = none

@[simp] theorem set_heap (s : S) (a : Nat) (b : Option Blk) (x : Nat) : (set s a b).heap x = if x = a then b else s.heap x := rfl
@[simp] theorem set_next (s : S) (a : Nat) (b : Option Blk) : (set s a b).next = s.next := rfl
@[simp] theorem set_fault (s : S) (a : Nat) (b : Option Blk) : (set s a b).fault = s.fault := rfl

/-- only memory was changed -/
structure Fr (s t : S) : Prop where
  pool : t.pool = s.pool
  active : t.active = s.active
  ending : t.ending = s.ending
  ended : t.ended = s.ended
  given : t.given = s.given
  refs : t.refs = s.refs
theorem Fr.refl {s : S} : Fr s s := ⟨rfl, rfl, rfl, rfl, rfl, rfl⟩
theorem Fr.trans {s t u : S} (h : Fr s t) (g : Fr t u) : Fr s u :=
  ⟨g.pool.trans h.pool, g.active.trans h.active, g.ending.trans h.ending, g.ended.trans h.ended, g.given.trans h.given, g.refs.trans h.refs⟩
theorem Fr.set {s : S} {a : Nat} {b : Option Blk} : Fr s (set s a b) := ⟨rfl, rfl, rfl, rfl, rfl, rfl⟩
theorem Fr.crash {s : S} : Fr s (crash s) := ⟨rfl, rfl, rfl, rfl, rfl, rfl⟩
theorem Fr.malloc {s : S} {b : Blk} : Fr s (malloc s b).2 := ⟨rfl, rfl, rfl, rfl, rfl, rfl⟩
theorem Fr.free {s : S} {a : Nat} : Fr s (free s a) := by unfold Args.free; split; exact .set; exact .crash
theorem Fr.mod {s : S} {a : Nat} {f} : Fr s (mod s a f) := by unfold Args.mod; split; exact .set; exact .crash
theorem Fr.retain {s : S} {a : Nat} : Fr s (retain s a) := by unfold Args.retain; split; exact .set; exact .crash
theorem Fr.release {s : S} {a : Nat} : Fr s (release s a) := by
  unfold Args.release; split
  · split; exact .free; exact .set
  · exact .crash
theorem Fr.freeArgs {s : S} {a : Nat} : Fr s (freeArgs s a) := by
  unfold Args.freeArgs; split
  · dsimp only; split
    · exact .trans .free .mod
    · exact .mod
  · exact .crash
theorem Fr.coFree {s : S} {a : Nat} : Fr s (coFree s a) := by
  unfold Args.coFree; dsimp only; split
  · exact .trans .freeArgs (.trans .free .free)
  · exact .trans .freeArgs .crash
theorem Fr.put {s : S} {a i : Nat} {v : Int} : Fr s (put s a i v) := by
  unfold Args.put
  split
  · split
    · exact .crash
    · split; exact .mod; exact .crash
    · split
      · split; exact .set; exact .crash
      · exact .crash
  · exact .crash
theorem Fr.copy {a : Nat} : ∀ {l : List Int} {s : S} {i : Nat}, Fr s (copy s a i l)
  | [], _, _ => .refl
  | _ :: _, _, _ => .trans .put .copy
theorem Fr.freeAll : ∀ {l : List Nat} {s : S}, Fr s (freeAll s l)
  | [], _ => .refl
  | _ :: _, _ => .trans .coFree .freeAll
theorem Fr.release_ {s : S} {a : Nat} : Fr s (release_ s a) := by
  unfold Args.release_; split
  · dsimp only; split
    · exact .trans .release (.trans .mod .freeArgs)
    · exact .freeArgs
  · exact .crash
theorem Fr.coNew {s : S} {m n : Bool} : Fr s (coNew s m n).2 := by
  unfold Args.coNew; split
  · dsimp only; split
    · exact .trans .malloc (.trans .malloc .mod)
    · exact .trans .malloc .free
  · exact .refl
theorem Fr.fail {s : S} {o : Option Nat} : Fr s (fail s o) := by
  unfold Args.fail; split
  · exact .refl
  · split
    · split
      · exact .trans .release (.trans .release .coFree)
      · exact .coFree
    · exact .crash

variable {s : S} {A : List Nat} {ref : Nat → Nat}

theorem mod_eq {a : Nat} {c : Co} (h : s.heap a = some (.co c)) (f : Co → Co) : mod s a f = set s a (some (.co (f c))) := by
  unfold mod; rw [h]
theorem free_eq {a : Nat} {b : Blk} (h : s.heap a = some b) : free s a = set s a none := by
  unfold free; rw [h]; rfl

theorem own_new (h : Own s A ref) {t : S} (hf : t.fault = false) (hn : t.next = s.next + 2)
    (e : ∀ x, t.heap x = if x = s.next then some (.co { stack := s.next + 1 }) else if x = s.next + 1 then some .stack else s.heap x) : Own t (s.next :: A) ref := by
  have h0 := h.nx s.next (Nat.le_refl _)
  have h1 := h.nx (s.next + 1) (by omega)
  constructor
  · exact hf
  · refine List.nodup_cons.mpr ⟨?_, h.nd⟩
    intro hm; obtain ⟨c, hc⟩ := h.isco _ hm; rw [h0] at hc; cases hc
  · grind [h.isco]
  · grind [h.len]
  · grind [h.st]
  · grind [h.ar]
  · grind [h.gn]
  · grind [h.ist, h.st]
  · grind [h.iar]
  · grind [h.ign]
  · grind [h.oco]
  · grind [h.ost]
  · grind [h.oar]
  · intro g' rc' hg'; have := h.och g' rc'; grind
  · grind [h.ogn]
  · intro g' hg'; have := h.rf g'; grind
  · grind [h.nx]

/-- only addresses were used up -/
theorem own_same (h : Own s A ref) {t : S} (hf : t.fault = false) (hn : s.next ≤ t.next) (e : ∀ x, t.heap x = s.heap x) : Own t A ref := by
  constructor
  · exact hf
  · exact h.nd
  · grind [h.isco]
  · grind [h.len]
  · grind [h.st]
  · grind [h.ar]
  · grind [h.gn]
  · grind [h.ist]
  · grind [h.iar]
  · grind [h.ign]
  · grind [h.oco]
  · grind [h.ost]
  · grind [h.oar]
  · intro g' rc' hg'; have := h.och g' rc'; grind
  · grind [h.ogn]
  · intro g' hg'; have := h.rf g'; grind
  · grind [h.nx]

/-- a control block gets a generator -/
theorem own_gen (h : Own s A ref) {t : S} {a : Nat} {c : Co} (hc : s.heap a = some (.co c)) (hg : c.gen = none) (hf : t.fault = false) (hn : t.next = s.next + 1)
    (e : ∀ x, t.heap x = if x = a then some (.co { c with gen := some s.next }) else if x = s.next then some (.chan 2) else s.heap x) :
    Own t A (fun x => if x = s.next then 1 else ref x) := by
  have h0 := h.nx s.next (Nat.le_refl _)
  have hr : ref s.next = 0 := by have := h.rf s.next; grind
  constructor
  · exact hf
  · exact h.nd
  · grind [h.isco]
  · grind [h.len]
  · grind [h.st]
  · grind [h.ar]
  · grind [h.gn]
  · grind [h.ist]
  · grind [h.iar]
  · grind [h.ign, h.gn]
  · grind [h.oco]
  · intro b hb
    obtain ⟨x, d, h1, h2⟩ := h.ost b (by grind)
    by_cases hx : x = a
    · exact ⟨a, _, by rw [e, if_pos rfl], by grind⟩
    · exact ⟨x, d, by grind, h2⟩
  · intro b l hb
    obtain ⟨x, d, h1, h2⟩ := h.oar b l (by grind)
    by_cases hx : x = a
    · exact ⟨a, _, by rw [e, if_pos rfl], by grind⟩
    · exact ⟨x, d, by grind, h2⟩
  · intro g' rc' hg'; have := h.och g' rc'; grind
  · intro g hg'
    by_cases hx : g = s.next
    · exact ⟨a, _, by rw [e, if_pos rfl], by grind⟩
    · obtain ⟨x, d, h1, h2⟩ := h.ogn g (by grind)
      exact ⟨x, d, by grind, h2⟩
  · intro g' hg'; have := h.rf g'; grind
  · grind [h.nx]

/-- a control block changes its arguments, without heap memory -/
theorem own_inl (h : Own s A ref) {t : S} {a : Nat} {c d : Co} (hc : s.heap a = some (.co c)) (hp : ∀ p, d.argv = .heap p ↔ c.argv = .heap p) (hd : d.stack = c.stack ∧ d.gen = c.gen ∧ d.aargv.length = 4)
    (hf : t.fault = false) (hn : t.next = s.next) (e : ∀ x, t.heap x = if x = a then some (.co d) else s.heap x) : Own t A ref := by
  constructor
  · exact hf
  · exact h.nd
  · grind [h.isco]
  · grind [h.len]
  · grind [h.st]
  · grind [h.ar]
  · grind [h.gn]
  · grind [h.ist]
  · grind [h.iar]
  · grind [h.ign, h.gn]
  · grind [h.oco]
  · intro b hb
    obtain ⟨x, y, h1, h2⟩ := h.ost b (by grind)
    by_cases hx : x = a
    · exact ⟨a, d, by rw [e, if_pos rfl], by grind⟩
    · exact ⟨x, y, by grind, h2⟩
  · intro b l hb
    obtain ⟨x, y, h1, h2⟩ := h.oar b l (by grind)
    by_cases hx : x = a
    · exact ⟨a, d, by rw [e, if_pos rfl], by grind⟩
    · exact ⟨x, y, by grind, h2⟩
  · intro g' rc' hg'; have := h.och g' rc'; grind
  · intro g hg'
    obtain ⟨x, y, h1, h2⟩ := h.ogn g (by grind)
    by_cases hx : x = a
    · exact ⟨a, d, by rw [e, if_pos rfl], by grind⟩
    · exact ⟨x, y, by grind, h2⟩
  · intro g' hg'; have := h.rf g'; grind
  · grind [h.nx]

/-- a control block gets an array for its arguments -/
theorem own_heap (h : Own s A ref) {t : S} {a : Nat} {c d : Co} (hc : s.heap a = some (.co c)) (hp : ∀ p, c.argv ≠ .heap p) (hd : d = { c with argv := .heap s.next, argc := d.argc }) {l : List (Option Int)}
    (hf : t.fault = false) (hn : t.next = s.next + 1) (e : ∀ x, t.heap x = if x = a then some (.co d) else if x = s.next then some (.args l) else s.heap x) : Own t A ref := by
  have h0 := h.nx s.next (Nat.le_refl _)
  have hd1 : d.stack = c.stack ∧ d.gen = c.gen ∧ d.aargv = c.aargv ∧ d.argv = .heap s.next := by rw [hd]; simp
  clear hd
  constructor
  · exact hf
  · exact h.nd
  · grind [h.isco]
  · grind [h.len]
  · grind [h.st]
  · grind [h.ar]
  · grind [h.gn]
  · grind [h.ist]
  · grind [h.iar, h.ar]
  · grind [h.ign, h.gn]
  · grind [h.oco]
  · intro b hb
    obtain ⟨x, y, h1, h2⟩ := h.ost b (by grind)
    by_cases hx : x = a
    · exact ⟨a, d, by rw [e, if_pos rfl], by grind⟩
    · exact ⟨x, y, by grind, h2⟩
  · intro b l hb
    by_cases hb' : b = s.next
    · exact ⟨a, d, by rw [e, if_pos rfl], by grind⟩
    obtain ⟨x, y, h1, h2⟩ := h.oar b l (by grind)
    by_cases hx : x = a
    · exact ⟨a, d, by rw [e, if_pos rfl], by grind⟩
    · exact ⟨x, y, by grind, h2⟩
  · intro g' rc' hg'; have := h.och g' rc'; grind
  · intro g hg'
    obtain ⟨x, y, h1, h2⟩ := h.ogn g (by grind)
    by_cases hx : x = a
    · exact ⟨a, d, by rw [e, if_pos rfl], by grind⟩
    · exact ⟨x, y, by grind, h2⟩
  · intro g' hg'; have := h.rf g'; grind
  · grind [h.nx]

/-- an array for arguments is written -/
theorem own_arr (h : Own s A ref) {t : S} {p : Nat} {l l' : List (Option Int)} (hc : s.heap p = some (.args l))
    (hf : t.fault = false) (hn : t.next = s.next) (e : ∀ x, t.heap x = if x = p then some (.args l') else s.heap x) : Own t A ref := by
  constructor
  · exact hf
  · exact h.nd
  · grind [h.isco]
  · grind [h.len]
  · grind [h.st]
  · grind [h.ar]
  · grind [h.gn]
  · grind [h.ist]
  · grind [h.iar, h.ar]
  · grind [h.ign, h.gn]
  · grind [h.oco]
  · intro b hb
    obtain ⟨x, y, h1, h2⟩ := h.ost b (by grind)
    exact ⟨x, y, by grind, h2⟩
  · intro b l hb
    by_cases hb' : b = p
    · obtain ⟨x, y, h1, h2⟩ := h.oar p _ hc
      exact ⟨x, y, by grind, by grind⟩
    obtain ⟨x, y, h1, h2⟩ := h.oar b l (by grind)
    exact ⟨x, y, by grind, h2⟩
  · intro g' rc' hg'; have := h.och g' rc'; grind
  · intro g hg'
    obtain ⟨x, y, h1, h2⟩ := h.ogn g (by grind)
    exact ⟨x, y, by grind, h2⟩
  · intro g' hg'; have := h.rf g'; grind
  · grind [h.nx]

/-- an array for arguments is freed -/
theorem own_freeArr (h : Own s A ref) {t : S} {a p : Nat} {c d : Co} (hc : s.heap a = some (.co c)) (hp : c.argv = .heap p) (hd : d.stack = c.stack ∧ d.gen = c.gen ∧ d.aargv = c.aargv ∧ d.argv = .null)
    (hf : t.fault = false) (hn : t.next = s.next) (e : ∀ x, t.heap x = if x = a then some (.co d) else if x = p then none else s.heap x) : Own t A ref := by
  obtain ⟨l0, hl0⟩ := h.ar a c p hc hp
  constructor
  · exact hf
  · exact h.nd
  · grind [h.isco]
  · grind [h.len]
  · grind [h.st]
  · grind [h.ar, h.iar]
  · grind [h.gn]
  · grind [h.ist]
  · grind [h.iar, h.ar]
  · grind [h.ign, h.gn]
  · grind [h.oco]
  · intro b hb
    obtain ⟨x, y, h1, h2⟩ := h.ost b (by grind)
    by_cases hx : x = a
    · exact ⟨a, d, by rw [e, if_pos rfl], by grind⟩
    · exact ⟨x, y, by grind, h2⟩
  · intro b l hb
    obtain ⟨x, y, h1, h2⟩ := h.oar b l (by grind)
    by_cases hx : x = a
    · grind
    · exact ⟨x, y, by grind, h2⟩
  · intro g' rc' hg'; have := h.och g' rc'; grind
  · intro g hg'
    obtain ⟨x, y, h1, h2⟩ := h.ogn g (by grind)
    by_cases hx : x = a
    · exact ⟨a, d, by rw [e, if_pos rfl], by grind⟩
    · exact ⟨x, y, by grind, h2⟩
  · intro g' hg'; have := h.rf g'; grind
  · grind [h.nx]

/-- a control block gives up its generator -/
theorem own_dropGen (h : Own s A ref) {t : S} {a g : Nat} {c : Co} (hc : s.heap a = some (.co c)) (hg : c.gen = some g)
    (hf : t.fault = false) (hn : t.next = s.next) (e : ∀ x, t.heap x = if x = a then some (.co { c with gen := none }) else if x = g then (if ref g = 0 then none else some (.chan (ref g))) else s.heap x) : Own t A ref := by
  have hgn := h.gn a c g hc hg
  constructor
  · exact hf
  · exact h.nd
  · grind [h.isco]
  · grind [h.len]
  · grind [h.st]
  · grind [h.ar, h.iar]
  · grind [h.gn, h.ign]
  · grind [h.ist]
  · grind [h.iar, h.ar]
  · grind [h.ign, h.gn]
  · grind [h.oco]
  · intro b hb
    obtain ⟨x, y, h1, h2⟩ := h.ost b (by grind)
    by_cases hx : x = a
    · exact ⟨a, _, by rw [e, if_pos rfl], by grind⟩
    · exact ⟨x, y, by grind, h2⟩
  · intro b l hb
    obtain ⟨x, y, h1, h2⟩ := h.oar b l (by grind)
    by_cases hx : x = a
    · exact ⟨a, _, by rw [e, if_pos rfl], by grind⟩
    · exact ⟨x, y, by grind, h2⟩
  · intro g' rc' hg'; have := h.och g' rc'; grind
  · intro g' hg'
    obtain ⟨x, y, h1, h2⟩ := h.ogn g' (by grind)
    by_cases hx : x = a
    · grind
    · exact ⟨x, y, by grind, h2⟩
  · intro g' hg'
    by_cases hx : g' = g
    · subst hx; exact ⟨ref g', by grind⟩
    · obtain ⟨rc, h1⟩ := h.rf g' hg'
      exact ⟨rc, by grind⟩
  · grind [h.nx]

/-- the number of references of the user changes -/
theorem own_refs (h : Own s A ref) {t : S} {g k : Nat} (hr : 0 < ref g)
    (hf : t.fault = false) (hn : t.next = s.next) (e : ∀ x, t.heap x = if x = g then (if k = 0 ∧ s.heap g = some (.chan (ref g)) then none else if s.heap g = some (.chan (ref g)) then some (.chan k) else some (.chan (k + 1))) else s.heap x) :
    Own t A (fun x => if x = g then k else ref x) := by
  obtain ⟨rc, hrc⟩ := h.rf g hr
  have ho := h.och g rc hrc
  constructor
  · exact hf
  · exact h.nd
  · grind [h.isco]
  · grind [h.len]
  · grind [h.st]
  · grind [h.ar, h.iar]
  · grind [h.gn, h.ign]
  · grind [h.ist]
  · grind [h.iar, h.ar]
  · grind [h.ign, h.gn]
  · grind [h.oco]
  · intro b hb
    obtain ⟨x, y, h1, h2⟩ := h.ost b (by grind)
    exact ⟨x, y, by grind, h2⟩
  · intro b l hb
    obtain ⟨x, y, h1, h2⟩ := h.oar b l (by grind)
    exact ⟨x, y, by grind, h2⟩
  · intro g' rc' hg'; have := h.och g' rc'; grind
  · intro g' hg'
    obtain ⟨x, y, h1, h2⟩ := h.ogn g' (by grind)
    exact ⟨x, y, by grind, h2⟩
  · intro g' hg'
    by_cases hx : g' = g
    · subst hx
      rcases ho.2 with h1 | h1
      · exact ⟨k, by grind⟩
      · exact ⟨k + 1, by grind⟩
    · obtain ⟨rc, h1⟩ := h.rf g' (by grind)
      exact ⟨rc, by grind⟩
  · grind [h.nx]

/-- a control block without arguments and generator is freed -/
theorem own_free (h : Own s A ref) {t : S} {a : Nat} {c : Co} (hc : s.heap a = some (.co c)) (hg : c.gen = none) (hp : ∀ p, c.argv ≠ .heap p)
    (hf : t.fault = false) (hn : t.next = s.next) (e : ∀ x, t.heap x = if x = a ∨ x = c.stack then none else s.heap x) :
    Own t (A.filter (· ≠ a)) ref := by
  have hs := h.st a c hc
  constructor
  · exact hf
  · exact h.nd.filter _
  · grind [h.isco]
  · grind [h.len]
  · grind [h.st, h.ist]
  · grind [h.ar, h.iar]
  · grind [h.gn, h.ign]
  · grind [h.ist]
  · grind [h.iar, h.ar]
  · grind [h.ign, h.gn]
  · grind [h.oco]
  · intro b hb
    obtain ⟨x, y, h1, h2⟩ := h.ost b (by grind)
    exact ⟨x, y, by grind, h2⟩
  · intro b l hb
    obtain ⟨x, y, h1, h2⟩ := h.oar b l (by grind)
    exact ⟨x, y, by grind, h2⟩
  · intro g' rc' hg'; have := h.och g' rc'; grind
  · intro g' hg'
    obtain ⟨x, y, h1, h2⟩ := h.ogn g' (by grind)
    exact ⟨x, y, by grind, h2⟩
  · intro g' hg'
    obtain ⟨rc, h1⟩ := h.rf g' (by grind)
    exact ⟨rc, by grind⟩
  · grind [h.nx]

end Neco.Args
