import Verif.Proof.Args2

/-! # The invariant -/

namespace Neco.Args

variable {s t : S} {A B : List Nat} {ref : Nat → Nat}

theorem Own.perm (h : Own s A ref) (hB : B.Nodup) (e : ∀ x, x ∈ A ↔ x ∈ B) : Own s B ref :=
  ⟨h.flt, hB, fun a ha => h.isco a ((e a).mpr ha), h.len, h.st, h.ar, h.gn, h.ist, h.iar, h.ign, fun a c hc => (e a).mp (h.oco a c hc), h.ost, h.oar, h.och, h.ogn, h.rf, h.nx⟩
theorem Own.congr (h : Own s A ref) {ref' : Nat → Nat} (e : ∀ x, ref' x = ref x) : Own s A ref' := by
  have : ref' = ref := funext e
  subst this; exact h
/-- nothing but memory matters -/
theorem Own.fr (h : Own s A ref) (e1 : t.heap = s.heap) (e2 : t.next = s.next) (e3 : t.fault = s.fault) : Own t A ref :=
  own_same h (by rw [e3]; exact h.flt) (by rw [e2]; exact Nat.le_refl _) (fun x => by rw [e1])

/-- the function of coroutine `a` sees the arguments it was given -/
def Seen (s : S) (a : Nat) : Prop := readArgc s a = some (s.given a).length ∧ ∀ i, i < (s.given a).length → readArg s a i = (s.given a)[i]?

structure Inv (s : S) : Prop where
  own : Own s (s.active ++ (s.ending ++ s.pool)) s.refs
  idle : ∀ a ∈ s.ending ++ s.pool, ∀ c, s.heap a = some (.co c) → c.argv = .null ∧ c.gen = none
  seen : ∀ a ∈ s.active, Seen s a

theorem setArgs_own (h : Own s A ref) {a : Nat} {c : Co} (hc : s.heap a = some (.co c)) (hp : c.argv = .null) {args : List Int} {m : Mem} :
    (setArgs s a args m = none ∧ m.args = false) ∨ ∃ t, setArgs s a args m = some t ∧ Own t A ref ∧ Others s t a ∧ Fr s t ∧ readArgc t a = some args.length ∧ ∀ i, i < args.length → readArg t a i = args[i]? := by
  have hl := h.len a c hc
  unfold setArgs
  by_cases h4 : args.length ≤ 4
  · right
    rw [if_pos h4, mod_eq hc]
    have h1 := own_inl h (t := set s a (some (.co { c with argv := .inl, argc := args.length }))) hc (d := { c with argv := .inl, argc := args.length }) (by simp [hp]) ⟨rfl, rfl, hl⟩ h.flt rfl (fun x => by simp)
    obtain ⟨g1, g2, ⟨d, g3, g4⟩, g5⟩ := copy_own (l := args) (i := 0) (a := a) h1 (by simp; rfl) (.inl ⟨rfl, by omega⟩)
    refine ⟨_, rfl, g1, ?_, .trans .set .copy, ?_, ?_⟩
    · refine Others.trans ?_ g2
      intro b d hd hb
      refine ⟨by simp; grind, fun c' p' hc' hp' => ?_⟩
      obtain ⟨l, h1⟩ := h.ar b c' p' hc' hp'
      simp; grind
    · unfold readArgc; rw [g3]; simp [g4]
    · intro i hi
      rw [g5, if_neg (by omega), if_pos (by omega)]; simp
  · rw [if_neg h4]
    cases hm : m.args with
    | false => left; exact ⟨by simp, rfl⟩
    | true =>
      right
      have h0 := h.nx s.next (Nat.le_refl _)
      have hne : a ≠ s.next := by rintro rfl; rw [h0] at hc; cases hc
      simp only [↓reduceIte, malloc]
      rw [mod_eq (c := c) (by simp [hne, hc])]
      have h1 := own_heap h (t := set { set s s.next (some (.args (List.replicate args.length none))) with next := s.next + 1 } a (some (.co { c with argv := .heap s.next, argc := args.length })))
        hc (by simp [hp]) (d := { c with argv := .heap s.next, argc := args.length }) rfl (l := List.replicate args.length none) h.flt rfl (fun x => by simp)
      obtain ⟨g1, g2, ⟨d, g3, g4⟩, g5⟩ := copy_own (l := args) (i := 0) (a := a) h1 (by simp; rfl) (.inr ⟨s.next, _, rfl, by simp [Ne.symm hne]; rfl, by simp⟩)
      refine ⟨_, rfl, g1, ?_, .trans (.trans .malloc .set) .copy, ?_, ?_⟩
      · refine Others.trans ?_ g2
        intro b d hd hb
        refine ⟨by simp; grind, fun c' p' hc' hp' => ?_⟩
        obtain ⟨l, h1⟩ := h.ar b c' p' hc' hp'
        simp; grind
      · unfold readArgc; rw [g3]; simp [g4]
      · intro i hi
        rw [g5, if_neg (by omega), if_pos (by omega)]; simp

theorem coFree_mod {a : Nat} {c : Co} (hc : s.heap a = some (.co c)) (hp : c.argv = .null) (hs : s.heap c.stack = some .stack) (f : Co → Co)
    (hf : (f c).argv = .null ∧ (f c).stack = c.stack) : coFree (mod s a f) a = coFree s a := by
  have hne : c.stack ≠ a := by rintro e; rw [e, hc] at hs; cases hs
  have key : ∀ (s : S) (c : Co), s.heap a = some (.co c) → c.argv = .null → s.heap c.stack = some .stack → c.stack ≠ a →
      coFree s a = set (set (set s a (some (.co { c with argc := 0, argv := .null }))) c.stack none) a none := by
    intro s c hc hp hs hne
    unfold coFree freeArgs
    simp only [hc, hp]
    rw [mod_eq hc]
    simp only [set_heap, ↓reduceIte]
    rw [free_eq (a := c.stack) (b := .stack) (by simp [hne, hs]), free_eq (a := a) (b := .co { c with argc := 0, argv := .null }) (by simp only [set_heap, if_neg (Ne.symm hne), ↓reduceIte])]
  rw [key s c hc hp hs hne, mod_eq hc, key _ (f c) (by simp) hf.1 (by rw [hf.2]; simp [hne, hs]) (by rw [hf.2]; exact hne), hf.2]
  unfold set
  simp only [S.mk.injEq, and_true]
  funext x
  by_cases h1 : x = a
  · simp [h1]
  · by_cases h2 : x = c.stack <;> simp [h1, h2]

/-- the coroutine gets its generator -/
theorem gen_own (h : Own s A ref) {a : Nat} {c : Co} (hc : s.heap a = some (.co c)) (hg : c.gen = none) :
    let t := retain (mod (malloc s (.chan 1)).2 a (fun c => { c with gen := some s.next })) s.next
    Own t A (fun x => if x = s.next then 1 else ref x) ∧ t.heap a = some (.co { c with gen := some s.next }) ∧ Others s t a ∧ t.next = s.next + 1 ∧ Fr s t ∧ t.heap s.next = some (.chan 2) ∧ ref s.next = 0 := by
  intro t
  have h0 := h.nx s.next (Nat.le_refl _)
  have hne : a ≠ s.next := by rintro rfl; rw [h0] at hc; cases hc
  have hr : ref s.next = 0 := by have := h.rf s.next; grind
  have e : t = set (set (malloc s (.chan 1)).2 a (some (.co { c with gen := some s.next }))) s.next (some (.chan 2)) := by
    show retain (mod (malloc s (.chan 1)).2 a (fun c => { c with gen := some s.next })) s.next = _
    rw [mod_eq (c := c) (by simp [malloc, hne, hc])]
    unfold retain
    simp only [set_heap, malloc, Ne.symm hne, ↓reduceIte]
  rw [e]
  refine ⟨own_gen h hc hg h.flt rfl (fun x => by simp [malloc]; grind), by simp [hne], ?_, rfl, .trans .malloc (.trans .set .set), by simp, hr⟩
  intro b d hd hb
  refine ⟨by simp [malloc]; grind, fun c' p' hc' hp' => ?_⟩
  obtain ⟨l, h1⟩ := h.ar b c' p' hc' hp'
  simp [malloc]; grind

/-- the failure of a start that has no generator -/
theorem fail_own (h : Own s A ref) {a : Nat} {c : Co} (hc : s.heap a = some (.co c)) (hg : c.gen = none) :
    Own (fail s (some a)) (A.filter (· ≠ a)) ref ∧ Others s (fail s (some a)) a := by
  unfold fail
  simp only [hc, hg]
  obtain ⟨h1, _, h3, _⟩ := coFree_own h hc hg
  exact ⟨h1, h3⟩

/-- the failure of a start that has one -/
theorem fail_gen_own (h : Own s A ref) {a g : Nat} {c : Co} (hc : s.heap a = some (.co c)) (hp : c.argv = .null) (hg : c.gen = some g) (hr : ref g = 1) :
    Own (fail s (some a)) (A.filter (· ≠ a)) (fun x => if x = g then 0 else ref x) ∧ Others s (fail s (some a)) a := by
  have hgn := h.gn a c g hc hg
  rw [hr] at hgn
  have hne : a ≠ g := by rintro rfl; rw [hc] at hgn; cases hgn
  unfold fail
  simp only [hc, hg]
  have e1 : release s g = set s g (some (.chan 1)) := by unfold release; rw [hgn]; rfl
  have h1 : Own (release s g) A (fun x => if x = g then 0 else ref x) := by
    refine own_refs h (g := g) (k := 0) (by omega) (by rw [e1]; exact h.flt) (by rw [e1]; rfl) (fun x => ?_)
    rw [e1, hgn, hr]; simp
  have hc1 : (release s g).heap a = some (.co c) := by rw [e1]; simp [hne, hc]
  have o1 : Others s (release s g) a := by
    intro b d hd hb
    rw [e1]
    refine ⟨by simp; grind, fun c' p' hc' hp' => ?_⟩
    obtain ⟨l, h1⟩ := h.ar b c' p' hc' hp'
    simp; grind
  obtain ⟨h2, h3, h4⟩ := release_own h1 hc1 hg
  have hst := h1.st a c hc1
  have e2 : release (release s g) g = set (release s g) g none := by
    have : (release s g).heap g = some (.chan 1) := by rw [e1]; simp
    generalize release s g = u at this
    unfold release
    rw [this]; simp only [↓reduceIte]
    exact free_eq this
  have hc2 : (release (release s g) g).heap a = some (.co c) := by rw [e2]; simp [hne, hc1]
  have hst2 : (release (release s g) g).heap c.stack = some .stack := by
    have : c.stack ≠ g := by
      intro e; rw [e, e1] at hst; simp at hst
    rw [e2]; simp [this, hst]
  obtain ⟨h5, _, h7, _⟩ := coFree_own h2 h3 rfl
  rw [coFree_mod hc2 hp hst2 _ ⟨hp, rfl⟩] at h5 h7
  exact ⟨h5, o1.trans (h4.trans h7)⟩

theorem Seen.keep {a : Nat} (h : Seen s a) (hk : Keep s t a) (hg : t.given a = s.given a) : Seen t a := by
  refine ⟨by rw [hk.readArgc, hg]; exact h.1, fun i hi => ?_⟩
  rw [hk.readArg, hg]
  rw [hg] at hi
  exact h.2 i hi

/-- a control block that is not in use, and the others -/
structure Taken (s s1 : S) (a : Nat) (B : List Nat) : Prop where
  own : Own s1 (a :: B) s1.refs
  co : ∃ c, s1.heap a = some (.co c) ∧ c.argv = .null ∧ c.gen = none
  kp : ∀ b ∈ B, Keep s s1 b
  nin : a ∉ B
  eq : s1.active = s.active ∧ s1.ending = s.ending ∧ s1.refs = s.refs ∧ s1.given = s.given ∧ s1.ended = s.ended
  b : B = s.active ++ (s.ending ++ s1.pool)
  sub : ∀ x ∈ s1.pool, x ∈ s.pool

theorem take_own (h : Inv s) (m : Mem) : (∃ a s1 B, take s m = (some a, s1) ∧ Taken s s1 a B) ∨
    (∃ s1, take s m = (none, s1) ∧ Fr s s1 ∧ Own s1 (s.active ++ (s.ending ++ s.pool)) s.refs ∧ ∀ x, s1.heap x = s.heap x) := by
  unfold take
  cases hp : s.pool with
  | cons a l =>
    left
    have hO := h.own
    rw [hp] at hO
    have hn := hO.nd
    have hnin : a ∉ s.active ++ (s.ending ++ l) := by
      simp only [List.nodup_append, List.nodup_cons, List.mem_append, List.mem_cons] at hn ⊢
      grind
    have hB : (a :: (s.active ++ (s.ending ++ l))).Nodup := by
      refine List.nodup_cons.mpr ⟨hnin, ?_⟩
      simp only [List.nodup_append, List.nodup_cons, List.mem_append, List.mem_cons] at hn ⊢
      grind
    have hO' := hO.perm hB (fun x => by simp only [List.mem_append, List.mem_cons]; grind)
    refine ⟨a, _, s.active ++ (s.ending ++ l), rfl, ⟨hO'.fr rfl rfl rfl, ?_, fun b _ => ⟨rfl, fun _ _ _ _ => rfl⟩, hnin, ⟨rfl, rfl, rfl, rfl, rfl⟩, rfl, by simp; grind⟩⟩
    obtain ⟨c, hc⟩ := hO'.isco a (by simp)
    exact ⟨c, hc, h.idle a (by simp [hp]) c hc⟩
  | nil =>
    dsimp only
    have hO := h.own
    rw [hp] at hO
    have h0 := hO.nx s.next (Nat.le_refl _)
    unfold coNew
    cases hm : m.co with
    | false => right; exact ⟨s, rfl, .refl, hO, fun _ => rfl⟩
    | true =>
      cases hk : m.stack with
      | false =>
        right
        simp only [malloc, ↓reduceIte]
        rw [free_eq (b := .co {}) (by simp)]
        have e : ∀ x, (set { set s s.next (some (.co {})) with next := s.next + 1 } s.next none).heap x = s.heap x := by intro x; simp; grind
        exact ⟨_, rfl, ⟨rfl, rfl, rfl, rfl, rfl, rfl⟩, own_same hO hO.flt (Nat.le_succ _) e, e⟩
      | true =>
        left
        simp only [malloc, ↓reduceIte]
        rw [mod_eq (c := {}) (by simp)]
        refine ⟨_, _, s.active ++ (s.ending ++ []), rfl, ⟨own_new hO hO.flt rfl (fun x => by simp; grind), ?_, ?_, ?_, ⟨rfl, rfl, rfl, rfl, rfl⟩, by show _ = s.active ++ (s.ending ++ s.pool); rw [hp], fun x hx => hx⟩⟩
        · exact ⟨_, by simp; rfl, rfl, rfl⟩
        · intro b hb
          obtain ⟨c, hc⟩ := hO.isco b hb
          have h1 := hO.nx (s.next + 1) (by omega)
          refine ⟨by simp; grind, fun c' p' hc' hp' => ?_⟩
          obtain ⟨l, h1⟩ := hO.ar b c' p' hc' hp'
          simp; grind
        · intro hm; obtain ⟨c, hc⟩ := hO.isco _ hm; rw [h0] at hc; cases hc

/-- the invariant after a start that failed -/
theorem inv_failed {s1 t : S} {a : Nat} {B : List Nat} (h : Inv s) (hT : Taken s s1 a B) (hF : Fr s1 t) (hO : Own t ((a :: B).filter (· ≠ a)) s1.refs) (ho : Others s1 t a) : Inv t := by
  have e : (a :: B).filter (· ≠ a) = B := by
    rw [List.filter_cons_of_neg (by simp)]
    refine List.filter_eq_self.mpr (fun x hx => ?_)
    simp only [ne_eq, decide_eq_true_eq]
    rintro rfl; exact hT.nin hx
  rw [e] at hO
  have hk : ∀ b ∈ B, Keep s t b := by
    intro b hb
    obtain ⟨c, hc⟩ := hT.own.isco b (by simp [hb])
    exact (hT.kp b hb).trans (ho b c hc (by rintro rfl; exact hT.nin hb))
  obtain ⟨e1, e2, e3, e4, e5⟩ := hT.eq
  have eB : B = t.active ++ (t.ending ++ t.pool) := by rw [hF.active, hF.ending, hF.pool, e1, e2]; exact hT.b
  refine ⟨?_, ?_, ?_⟩
  · rw [← eB, hF.refs]; exact hO
  · intro b hb c hc
    have hb' : b ∈ B := by rw [eB]; exact List.mem_append_right _ hb
    rw [(hk b hb').1] at hc
    refine h.idle b ?_ c hc
    rw [hF.ending, hF.pool, e2] at hb
    rcases List.mem_append.mp hb with hb | hb
    · exact List.mem_append_left _ hb
    · exact List.mem_append_right _ (hT.sub b hb)
  · intro b hb
    have hb' : b ∈ B := by rw [eB]; exact List.mem_append_left _ hb
    rw [hF.active, e1] at hb
    exact (h.seen b hb).keep (hk b hb') (by rw [hF.given, e4])

/-- the invariant after a start that worked -/
theorem inv_started {s1 t u : S} {a : Nat} {B : List Nat} {args : List Int} (h : Inv s) (hT : Taken s s1 a B) (hF : Fr s1 t) (hO : Own t (a :: B) u.refs) (ho : Others s1 t a)
    (h1 : readArgc t a = some args.length) (h2 : ∀ i, i < args.length → readArg t a i = args[i]?)
    (hu : u.heap = t.heap ∧ u.next = t.next ∧ u.fault = t.fault ∧ u.active = a :: t.active ∧ u.ending = t.ending ∧ u.pool = t.pool ∧ u.given = fun x => if x = a then args else t.given x) : Inv u := by
  obtain ⟨u1, u2, u3, u4, u5, u6, u7⟩ := hu
  have hk : ∀ b ∈ B, Keep s u b := by
    intro b hb
    obtain ⟨c, hc⟩ := hT.own.isco b (by simp [hb])
    exact ((hT.kp b hb).trans (ho b c hc (by rintro rfl; exact hT.nin hb))).trans ⟨by rw [u1], fun _ _ _ _ => by rw [u1]⟩
  obtain ⟨e1, e2, e3, e4, e5⟩ := hT.eq
  have eB : a :: B = u.active ++ (u.ending ++ u.pool) := by rw [u4, u5, u6, hF.active, hF.ending, hF.pool, e1, e2, hT.b]; rfl
  refine ⟨?_, ?_, ?_⟩
  · rw [← eB]; exact hO.fr u1 u2 u3
  · intro b hb c hc
    rw [u5, u6, hF.ending, hF.pool, e2] at hb
    have hb' : b ∈ B := by rw [hT.b]; exact List.mem_append_right _ hb
    rw [(hk b hb').1] at hc
    refine h.idle b ?_ c hc
    rcases List.mem_append.mp hb with hb | hb
    · exact List.mem_append_left _ hb
    · exact List.mem_append_right _ (hT.sub b hb)
  · intro b hb
    rw [u4] at hb
    rcases List.mem_cons.mp hb with rfl | hb
    · have hg : u.given b = args := by rw [u7]; simp
      refine ⟨?_, fun i hi => ?_⟩
      · rw [hg, ← h1]; unfold readArgc; rw [u1]
      · rw [hg] at hi ⊢; rw [← h2 i hi]; unfold readArg; rw [u1]
    · rw [hF.active, e1] at hb
      have hb' : b ∈ B := by rw [hT.b]; exact List.mem_append_left _ hb
      refine (h.seen b hb).keep (hk b hb') ?_
      rw [u7, hF.given, e4]
      simp only [ite_eq_right_iff]
      rintro rfl; exact absurd hb' hT.nin

theorem start_inv (h : Inv s) (args : List Int) (gen : Bool) (m : Mem) : Inv (start s args gen m).2.2 ∧
    ((start s args gen m).1 = none → (start s args gen m).2.2.active = s.active ∧ (start s args gen m).2.2.ending = s.ending ∧ (start s args gen m).2.2.refs = s.refs ∧ (start s args gen m).2.2.given = s.given ∧
      (∀ x ∈ (start s args gen m).2.2.pool, x ∈ s.pool) ∧ (start s args gen m).2.2.ended = s.ended) ∧
    ∀ a, (start s args gen m).1 = some a → (start s args gen m).2.2.active = a :: s.active ∧ (start s args gen m).2.2.given a = args ∧ (∀ b, b ≠ a → (start s args gen m).2.2.given b = s.given b) ∧
      (start s args gen m).2.2.ended = s.ended := by
  unfold start
  rcases take_own h m with ⟨a, s1, B, e, hT⟩ | ⟨s1, e, hF, hO, hh⟩
  · rw [e]
    dsimp only
    obtain ⟨c, hc, hp, hg⟩ := hT.co
    obtain ⟨e1, e2, e3, e4, e5⟩ := hT.eq
    cases gen with
    | false =>
      simp only [Bool.false_eq_true, ↓reduceIte]
      rcases setArgs_own hT.own hc hp (args := args) (m := m) with ⟨e', _⟩ | ⟨t, e', t1, t2, t3, t4, t5⟩
      · rw [e']
        dsimp only
        have hm : mod s1 a (fun c => { c with argv := .null }) = s1 := by
          rw [mod_eq hc]
          have : { c with argv := .null } = c := by cases c; simp_all
          rw [this]
          unfold set
          cases s1
          simp only [S.mk.injEq, and_true] at hc ⊢
          funext x
          split
          · rename_i hx; rw [hx, hc]
          · rfl
        rw [hm]
        obtain ⟨f1, f2⟩ := fail_own hT.own hc hg
        have hF : Fr s1 (fail s1 (some a)) := .fail
        exact ⟨inv_failed h hT hF f1 f2, fun _ => ⟨by rw [hF.active, e1], by rw [hF.ending, e2], by rw [hF.refs, e3], by rw [hF.given, e4], by rw [hF.pool]; exact hT.sub, by rw [hF.ended, e5]⟩, by simp⟩
      · rw [e']
        dsimp only
        refine ⟨inv_started h hT t3 (by simpa [t3.refs] using t1) t2 t4 t5 ⟨rfl, rfl, rfl, rfl, rfl, rfl, rfl⟩, by simp, ?_⟩
        rintro _ ⟨⟩
        exact ⟨by rw [t3.active, e1], by simp, fun b hb => by simp [hb, t3.given, e4], by show t.ended = _; rw [t3.ended, e5]⟩
    | true =>
      simp only [↓reduceIte]
      cases hm : m.chan with
      | false =>
        simp only [Bool.false_eq_true, ↓reduceIte]
        obtain ⟨f1, f2⟩ := fail_own hT.own hc hg
        have hF : Fr s1 (fail s1 (some a)) := .fail
        exact ⟨inv_failed h hT hF f1 f2, fun _ => ⟨by rw [hF.active, e1], by rw [hF.ending, e2], by rw [hF.refs, e3], by rw [hF.given, e4], by rw [hF.pool]; exact hT.sub, by rw [hF.ended, e5]⟩, by simp⟩
      | true =>
        simp only [↓reduceIte]
        obtain ⟨g1, g2, g3, g4, g5, g6, g7⟩ := gen_own hT.own hc hg
        have em : (malloc s1 (.chan 1)).1 = s1.next := rfl
        rw [em]
        generalize hs2 : retain (mod (malloc s1 (.chan 1)).2 a (fun c => { c with gen := some s1.next })) s1.next = s2 at g1 g2 g3 g4 g5 g6
        rcases setArgs_own g1 g2 hp (args := args) (m := m) with ⟨e', _⟩ | ⟨t, e', t1, t2, t3, t4, t5⟩
        · rw [e']
          dsimp only
          have hm : mod s2 a (fun c => { c with argv := .null }) = s2 := by
            rw [mod_eq g2]
            have : { ({ c with gen := some s1.next } : Co) with argv := .null } = { c with gen := some s1.next } := by cases c; simp_all
            rw [this]
            clear hs2 g1 g3 g4 g5 g6 e'
            unfold set
            cases s2
            simp only [S.mk.injEq, and_true] at g2 ⊢
            funext x
            split
            · rename_i hx; rw [hx, g2]
            · rfl
          rw [hm]
          obtain ⟨f1, f2⟩ := fail_gen_own g1 g2 hp rfl (by simp)
          have hF : Fr s1 (fail s2 (some a)) := g5.trans .fail
          refine ⟨inv_failed h hT hF (f1.congr (fun x => ?_)) (g3.trans f2), fun _ => ⟨by rw [hF.active, e1], by rw [hF.ending, e2], by rw [hF.refs, e3], by rw [hF.given, e4], by rw [hF.pool]; exact hT.sub, by rw [hF.ended, e5]⟩, by simp⟩
          by_cases hx : x = s1.next <;> simp [hx, g7]
        · rw [e']
          dsimp only
          have hF := g5.trans t3
          refine ⟨inv_started h hT hF (t1.congr (fun x => ?_)) (g3.trans t2) t4 t5 ⟨rfl, rfl, rfl, rfl, rfl, rfl, rfl⟩, by simp, ?_⟩
          · simp only [Option.some.injEq, hF.refs]
            by_cases hx : x = s1.next <;> simp [hx, g7]
          · rintro _ ⟨⟩
            exact ⟨by rw [hF.active, e1], by simp, fun b hb => by simp [hb, hF.given, e4], by show t.ended = _; rw [hF.ended, e5]⟩
  · rw [e]
    dsimp only
    refine ⟨⟨?_, ?_, ?_⟩, fun _ => ⟨hF.active, hF.ending, hF.refs, hF.given, by rw [hF.pool]; exact fun _ h => h, hF.ended⟩, by simp⟩
    · rw [hF.active, hF.ending, hF.pool, hF.refs]; exact hO
    · intro b hb c hc
      rw [hh] at hc; rw [hF.ending, hF.pool] at hb
      exact h.idle b hb c hc
    · intro b hb
      rw [hF.active] at hb
      exact (h.seen b hb).keep ⟨hh b, fun _ _ _ _ => hh _⟩ (by rw [hF.given])

end Neco.Args
