import Verif.Model.Mem
import Mathlib.Data.List.Basic

/-! # C84: memory goes back to where it came from -/

namespace Neco.Mem

/-! ## Specification -/

/-- The family that block `p` was last got from, if it is out: read from the calls, newest first. -/
def owner (p : Nat) : List Ev → Option Nat
  | [] => none
  | .gave k q :: b => if q = p then some k else owner p b
  | .moved k o q :: b => if q = p then some k else if o = p then none else owner p b
  | .took _ q :: b => if q = p then none else owner p b
  | _ :: b => owner p b

/-- Every block that an allocator is asked to resize or is given back is one it gave itself and has not got
back. -/
def Paired : List Ev → Prop
  | [] => True
  | .moved k p _ :: b => owner p b = some k ∧ Paired b
  | .kept k p _ :: b => owner p b = some k ∧ Paired b
  | .took k p :: b => owner p b = some k ∧ Paired b
  | _ :: b => Paired b

instance decPaired : (l : List Ev) → Decidable (Paired l)
  | [] => isTrue trivial
  | .gave _ _ :: b => decPaired b
  | .refused _ _ :: b => decPaired b
  | .moved k p _ :: b => have := decPaired b; inferInstanceAs (Decidable (owner p b = some k ∧ Paired b))
  | .kept k p _ :: b => have := decPaired b; inferInstanceAs (Decidable (owner p b = some k ∧ Paired b))
  | .took k p :: b => have := decPaired b; inferInstanceAs (Decidable (owner p b = some k ∧ Paired b))

/-- a call of one of the setters, which takes no memory -/
def Op.Setting : Op → Prop
  | .setallocator _ _ _ | .setpanic _ => True
  | _ => False

/-- The program uses one family: it sets no allocator, or sets all three functions of the same one before the
first call that takes memory, and sets none later. -/
def OneFamily (k : Nat) (os : List Op) : Prop :=
  (k = 0 ∧ ∀ o ∈ os, ∀ m r f, o ≠ .setallocator m r f) ∨
  ∃ pre os', os = pre ++ .setallocator (some k) (some k) (some k) :: os' ∧ (∀ o ∈ pre, o.Setting) ∧ ∀ o ∈ os', ∀ m r f, o ≠ .setallocator m r f

/-! ## Proofs -/

/-- the family of an event -/
def Ev.fam : Ev → Nat
  | .gave k _ | .refused k _ | .moved k _ _ | .kept k _ _ | .took k _ => k

theorem check_log (s : S) (p n : Nat) : (check s p n).log = s.log := by unfold check; split <;> rfl
theorem check_next (s : S) (p n : Nat) : (check s p n).next = s.next := by unfold check; split <;> rfl
theorem check_set (s : S) (p n : Nat) : (check s p n).malloc = s.malloc ∧ (check s p n).realloc = s.realloc ∧ (check s p n).free = s.free ∧ (check s p n).panicOn = s.panicOn := by
  unfold check; split <;> exact ⟨rfl, rfl, rfl, rfl⟩

/-- what holds of the calls made, whatever is set: names of blocks are new, and a block that is out has an owner -/
structure Inv (s : S) : Prop where
  lt : ∀ p ∈ out s.log, 0 < p ∧ p < s.next
  pos : 0 < s.next
  nodup : (out s.log).Nodup
  owned : ∀ p, p ∈ out s.log ↔ (owner p s.log).isSome

theorem inv_check {s : S} {p n : Nat} (h : Inv s) : Inv (check s p n) := by
  obtain ⟨a, b, c, d⟩ := h
  exact ⟨by rw [check_log, check_next]; exact a, by rw [check_next]; exact b, by rw [check_log]; exact c, by rw [check_log]; exact d⟩

theorem inv_gave {s : S} {k : Nat} (h : Inv s) : Inv { s with next := s.next + 1, log := .gave k s.next :: s.log } := by
  obtain ⟨a, b, c, d⟩ := h
  refine ⟨?_, Nat.succ_pos _, ?_, ?_⟩
  · intro p hp
    rcases List.mem_cons.1 hp with rfl | hp
    · exact ⟨b, Nat.lt_succ_self _⟩
    · have := a p hp; dsimp only; omega
  · refine List.nodup_cons.2 ⟨fun hm => ?_, c⟩
    exact Nat.lt_irrefl _ (a _ hm).2
  · intro p
    show p ∈ s.next :: out s.log ↔ (if s.next = p then some k else owner p s.log).isSome
    by_cases hp : s.next = p
    · simp [hp]
    · rw [if_neg hp, ← d p, List.mem_cons]; constructor
      · rintro (e | h); exact absurd e.symm hp; exact h
      · exact Or.inr

theorem inv_took {s : S} {k p : Nat} (h : Inv s) : Inv { s with log := .took k p :: s.log } := by
  obtain ⟨a, b, c, d⟩ := h
  refine ⟨fun q hq => a q (List.mem_of_mem_erase hq), b, c.erase _, ?_⟩
  intro q
  show q ∈ (out s.log).erase p ↔ (if p = q then none else owner q s.log).isSome
  rw [c.mem_erase_iff]
  by_cases hp : p = q
  · simp [hp]
  · rw [if_neg hp, ← d q]; exact ⟨fun h => h.2, fun h => ⟨fun e => hp e.symm, h⟩⟩

theorem inv_moved {s : S} {k p : Nat} (h : Inv s) : Inv { s with next := s.next + 1, log := .moved k p s.next :: s.log } := by
  have h1 := inv_gave (k := k) (inv_took (k := k) (p := p) h)
  obtain ⟨a, b, c, d⟩ := h1
  refine ⟨a, b, c, fun q => ?_⟩
  rw [show (q ∈ out (Ev.moved k p s.next :: s.log) ↔ q ∈ out (Ev.gave k s.next :: .took k p :: s.log)) from Iff.rfl]
  exact d q

theorem inv_alloc {s : S} {n : Nat} {ok : Bool} (h : Inv s) : Inv (alloc s n ok).2 := by
  unfold alloc
  split
  · split
    · exact inv_check (inv_gave h)
    · exact inv_check ⟨h.lt, h.pos, h.nodup, h.owned⟩
  · exact inv_check h

theorem inv_resize {s : S} {p n : Nat} {ok : Bool} (h : Inv s) : Inv (resize s p n ok).2 := by
  unfold resize
  split
  · split
    · exact inv_check (inv_alloc h)
    · split
      · exact inv_check (inv_moved h)
      · exact inv_check ⟨h.lt, h.pos, h.nodup, h.owned⟩
  · exact inv_check h

theorem inv_step {s s' : S} {o : Op} {r : Nat} (h : Inv s) (hs : step s o = some (r, s')) : Inv s' := by
  unfold step at hs
  split at hs
  · cases hs
  · cases o with
    | setallocator m r f => cases hs; exact ⟨h.lt, h.pos, h.nodup, h.owned⟩
    | setpanic b => cases hs; exact ⟨h.lt, h.pos, h.nodup, h.owned⟩
    | alloc n ok => have e := Option.some.inj hs; have := inv_alloc (n := n) (ok := ok) h; rw [e] at this; exact this
    | resize p n ok =>
      dsimp only at hs; split at hs
      · have e := Option.some.inj hs; have := inv_resize (p := p) (n := n) (ok := ok) h; rw [e] at this; exact this
      · cases hs
    | release p =>
      dsimp only at hs; split at hs
      · cases hs; unfold release; split
        · exact h
        · exact inv_took h
      · cases hs

theorem inv_reach {os : List Op} {s : S} (r : Reach os s) : Inv s := by
  induction r with
  | init => exact ⟨by simp [out], by decide, by simp [out], by simp [out, owner]⟩
  | step _ hs ih => exact inv_step ih hs

/-- one family in use: the settings and the calls -/
structure One (k : Nat) (s : S) : Prop where
  m : fam s.malloc = k
  r : fam s.realloc = k
  f : fam s.free = k
  ev : ∀ e ∈ s.log, e.fam = k

theorem owner_fam {k p j : Nat} : ∀ {l : List Ev}, (∀ e ∈ l, e.fam = k) → owner p l = some j → j = k
  | [], _, h => by cases h
  | e :: b, h, ho => by
    have hb : ∀ e ∈ b, e.fam = k := fun e he => h e (List.mem_cons_of_mem _ he)
    have he := h e List.mem_cons_self
    cases e with
    | gave k' q =>
      change (if q = p then some k' else owner p b) = _ at ho
      split at ho
      · cases ho; exact he
      · exact owner_fam hb ho
    | refused k' n => exact owner_fam (l := b) hb ho
    | moved k' o q =>
      change (if q = p then some k' else if o = p then none else owner p b) = _ at ho
      split at ho
      · cases ho; exact he
      · split at ho
        · cases ho
        · exact owner_fam hb ho
    | kept k' o n => exact owner_fam (l := b) hb ho
    | took k' q =>
      change (if q = p then none else owner p b) = _ at ho
      split at ho
      · cases ho
      · exact owner_fam hb ho

theorem owned_by {k p : Nat} {s : S} (i : Inv s) (o : One k s) (h : p ∈ out s.log) : owner p s.log = some k := by
  have := (i.owned p).1 h
  obtain ⟨j, hj⟩ := Option.isSome_iff_exists.1 this
  rw [hj, owner_fam o.ev hj]

theorem one_check {k p n : Nat} {s : S} (h : One k s) : One k (check s p n) := by
  obtain ⟨a, b, c, d⟩ := h
  obtain ⟨e1, e2, e3, _⟩ := check_set s p n
  exact ⟨by rw [e1]; exact a, by rw [e2]; exact b, by rw [e3]; exact c, by rw [check_log]; exact d⟩

theorem ev_cons {k : Nat} {l : List Ev} {e : Ev} (h : ∀ e ∈ l, e.fam = k) (he : e.fam = k) : ∀ x ∈ e :: l, x.fam = k := by
  intro x hx; rcases List.mem_cons.1 hx with rfl | hx
  · exact he
  · exact h x hx

theorem one_alloc {k n : Nat} {ok : Bool} {s : S} (o : One k s) (p : Paired s.log) : One k (alloc s n ok).2 ∧ Paired (alloc s n ok).2.log := by
  unfold alloc
  split
  · split
    · exact ⟨one_check ⟨o.m, o.r, o.f, ev_cons o.ev o.m⟩, by rw [check_log]; exact p⟩
    · exact ⟨one_check ⟨o.m, o.r, o.f, ev_cons o.ev o.m⟩, by rw [check_log]; exact p⟩
  · exact ⟨one_check o, by rw [check_log]; exact p⟩

theorem one_step {k : Nat} {s s' : S} {o : Op} {r : Nat} (i : Inv s) (h : One k s ∧ Paired s.log)
    (hn : ∀ m r f, o ≠ .setallocator m r f) (hs : step s o = some (r, s')) : One k s' ∧ Paired s'.log := by
  obtain ⟨h, hp⟩ := h
  unfold step at hs
  split at hs
  · cases hs
  · cases o with
    | setallocator m r f => exact absurd rfl (hn m r f)
    | setpanic b => cases hs; exact ⟨⟨h.m, h.r, h.f, h.ev⟩, hp⟩
    | alloc n ok => have e := Option.some.inj hs; have := one_alloc (n := n) (ok := ok) h hp; rw [e] at this; exact this
    | resize p n ok =>
      dsimp only at hs; split at hs
      · rename_i hc
        have e := Option.some.inj hs
        have : One k (resize s p n ok).2 ∧ Paired (resize s p n ok).2.log := by
          unfold resize
          split
          · split
            · have := one_alloc (n := n) (ok := ok) h hp
              exact ⟨one_check this.1, by rw [check_log]; exact this.2⟩
            · rename_i h0
              have hm : p ∈ out s.log := hc.1.resolve_left h0
              have hw : owner p s.log = some (fam s.realloc) := by rw [h.r]; exact owned_by i h hm
              split
              · exact ⟨one_check ⟨h.m, h.r, h.f, ev_cons h.ev h.r⟩, by rw [check_log]; exact ⟨hw, hp⟩⟩
              · exact ⟨one_check ⟨h.m, h.r, h.f, ev_cons h.ev h.r⟩, by rw [check_log]; exact ⟨hw, hp⟩⟩
          · exact ⟨one_check h, by rw [check_log]; exact hp⟩
        rw [e] at this; exact this
      · cases hs
    | release p =>
      dsimp only at hs; split at hs
      · rename_i hc
        cases hs; unfold release; split
        · exact ⟨h, hp⟩
        · rename_i h0
          have hm : p ∈ out s.log := hc.resolve_left h0
          exact ⟨⟨h.m, h.r, h.f, ev_cons h.ev h.f⟩, by rw [h.f]; exact owned_by i h hm, hp⟩
      · cases hs

/-- run calls from a state -/
def runs (s : S) : List Op → Option S
  | [] => some s
  | o :: os => match step s o with
    | none => none
    | some (_, s') => runs s' os

theorem runs_reach {a : List Op} : ∀ {os : List Op} {s s' : S}, Reach a s → runs s os = some s' → Reach (a ++ os) s'
  | [], _, _, r, h => by cases h; simpa using r
  | o :: os, s, s', r, h => by
    unfold runs at h
    cases hs : step s o with
    | none => rw [hs] at h; cases h
    | some q =>
      rw [hs] at h
      have := runs_reach (os := os) (Reach.step r hs) h
      simpa using this

theorem runs_snoc : ∀ {os : List Op} {s s' s'' : S} {o : Op} {r : Nat}, runs s os = some s' → step s' o = some (r, s'') → runs s (os ++ [o]) = some s''
  | [], _, _, _, _, _, h, hs => by cases h; simp [runs, hs]
  | a :: os, s, s', s'', o, r, h, hs => by
    rw [List.cons_append]
    unfold runs at h ⊢
    cases ha : step s a with
    | none => rw [ha] at h; cases h
    | some q => rw [ha] at h; exact runs_snoc (os := os) h hs

theorem reach_runs {os : List Op} {s : S} (r : Reach os s) : runs {} os = some s := by
  induction r with
  | init => rfl
  | step _ hs ih => exact runs_snoc ih hs

theorem runs_append : ∀ {a b : List Op} {s s' : S}, runs s (a ++ b) = some s' → ∃ m, runs s a = some m ∧ runs m b = some s'
  | [], _, s, _, h => ⟨s, rfl, h⟩
  | o :: a, b, s, s', h => by
    rw [List.cons_append] at h
    unfold runs at h
    cases ho : step s o with
    | none => rw [ho] at h; cases h
    | some q =>
      rw [ho] at h
      obtain ⟨m, h1, h2⟩ := runs_append (a := a) h
      exact ⟨m, by unfold runs; rw [ho]; exact h1, h2⟩

theorem quiet : ∀ {os : List Op} {s s' : S}, (∀ o ∈ os, o.Setting) → runs s os = some s' → s'.log = s.log
  | [], _, _, _, h => by cases h; rfl
  | o :: os, s, s', hn, h => by
    unfold runs at h
    cases ho : step s o with
    | none => rw [ho] at h; cases h
    | some q =>
      rw [ho] at h
      rw [quiet (os := os) (fun o h => hn o (List.mem_cons_of_mem _ h)) h]
      have hset := hn o List.mem_cons_self
      unfold step at ho
      split at ho
      · cases ho
      · cases o <;> first | exact hset.elim | (cases ho; rfl)

theorem one_runs {k : Nat} : ∀ {os : List Op} {s s' : S}, Inv s → One k s ∧ Paired s.log → (∀ o ∈ os, ∀ m r f, o ≠ .setallocator m r f) → runs s os = some s' → One k s' ∧ Paired s'.log
  | [], _, _, _, h, _, hr => by cases hr; exact h
  | o :: os, s, s', i, h, hn, hr => by
    unfold runs at hr
    cases ho : step s o with
    | none => rw [ho] at hr; cases hr
    | some q =>
      rw [ho] at hr
      exact one_runs (os := os) (inv_step i ho) (one_step i h (hn o List.mem_cons_self) ho) (fun o h => hn o (List.mem_cons_of_mem _ h)) hr

/-- C84. A program that sets no allocator, or sets the three functions of one before the first request, gives every
block back, and has it resized, by the allocator it came from; and no call goes to another allocator. This
is proved for every sequence of requests, granted or refused. -/
theorem C84_paired_partial {k : Nat} {os : List Op} {s : S} (r : Reach os s) (h : OneFamily k os) :
    Paired s.log ∧ ∀ e ∈ s.log, e.fam = k := by
  suffices hh : One k s ∧ Paired s.log from ⟨hh.2, hh.1.ev⟩
  have hr := reach_runs r
  rcases h with ⟨rfl, hn⟩ | ⟨pre, os', rfl, hp, hn⟩
  · exact one_runs (inv_reach .init) ⟨⟨rfl, rfl, rfl, by simp⟩, trivial⟩ hn hr
  · obtain ⟨m, h1, h2⟩ := runs_append hr
    have hl : m.log = [] := quiet hp h1
    have im : Inv m := inv_reach (runs_reach .init h1)
    unfold runs at h2
    cases ho : step m (.setallocator (some k) (some k) (some k)) with
    | none => rw [ho] at h2; cases h2
    | some q =>
      rw [ho] at h2
      refine one_runs (inv_step im ho) ?_ hn h2
      unfold step at ho
      split at ho
      · cases ho
      · cases ho
        exact ⟨⟨rfl, rfl, rfl, by simp [hl]⟩, by show Paired m.log; rw [hl]; trivial⟩

/-- the hypotheses are met: allocator 7 is set, a block is had, resized, not resized, and given back -/
example : ∃ os s, Reach os s ∧ OneFamily 7 os ∧
    s.log = [.took 7 2, .kept 7 2 64, .moved 7 1 2, .refused 7 8, .gave 7 1] := by
  refine ⟨_, _, runs_reach .init (os := [.setpanic false, .setallocator (some 7) (some 7) (some 7), .alloc 16 true, .alloc 8 false, .resize 1 32 true, .resize 2 64 false, .release 2]) rfl, Or.inr ⟨[.setpanic false], _, rfl, by simp [Op.Setting], ?_⟩, by decide⟩
  intro o ho m r f
  simp only [List.mem_cons, List.not_mem_nil, or_false] at ho
  rcases ho with rfl | rfl | rfl | rfl | rfl <;> simp

/-- C84. Without the condition it is not so: with only the first function given, memory of the user's allocator is
given to the C library's `free`; and with the allocator set when a block is out already, that block is given to
an allocator it does not come from. -/
theorem C84_paired_not_general :
    (∃ s, Reach [.setallocator (some 7) none none, .alloc 16 true, .release 1] s ∧ s.log = [.took 0 1, .gave 7 1] ∧ ¬ Paired s.log) ∧
    (∃ s, Reach [.alloc 16 true, .setallocator (some 7) (some 7) (some 7), .release 1] s ∧ s.log = [.took 7 1, .gave 0 1] ∧ ¬ Paired s.log) := by
  exact ⟨⟨_, runs_reach .init (os := [.setallocator (some 7) none none, .alloc 16 true, .release 1]) rfl, by decide, by decide⟩,
    ⟨_, runs_reach .init (os := [.alloc 16 true, .setallocator (some 7) (some 7) (some 7), .release 1]) rfl, by decide, by decide⟩⟩

/-- C84. What a request for memory gives: a granted request below the largest size gives a block that is not
`NULL` and was not out, and it is out now with the others; any other request gives `NULL` and the blocks out are
those that were. -/
theorem C84_alloc {os : List Op} {s s' : S} {n p : Nat} {ok : Bool} (r : Reach os s) (hs : step s (.alloc n ok) = some (p, s')) :
    (ok = true ∧ n < 18446744073709551615 → p ≠ 0 ∧ p ∉ out s.log ∧ ∀ q, q ∈ out s'.log ↔ q = p ∨ q ∈ out s.log) ∧
    (¬ (ok = true ∧ n < 18446744073709551615) → p = 0 ∧ out s'.log = out s.log) := by
  have i := inv_reach r
  unfold step at hs
  split at hs
  · cases hs
  dsimp only at hs
  have e := Option.some.inj hs
  unfold alloc at e
  split at e
  · rename_i hn
    split at e
    · rename_i hok
      cases e
      refine ⟨fun _ => ⟨Nat.pos_iff_ne_zero.1 i.pos, fun h => Nat.lt_irrefl _ (i.lt _ h).2, fun q => ?_⟩, fun h => absurd ⟨hok, hn⟩ h⟩
      rw [check_log]; exact List.mem_cons
    · rename_i hok
      cases e
      exact ⟨fun h => absurd h.1 hok, fun _ => ⟨rfl, by rw [check_log]; rfl⟩⟩
  · rename_i hn
    cases e
    exact ⟨fun h => absurd h.2 hn, fun _ => ⟨rfl, by rw [check_log]⟩⟩

/-- C84. What resizing a block gives: when it is granted there is a block in place of the old one, which is gone,
and the others stay; when it is not, `NULL` is given and the old block is still there. -/
theorem C84_resize {os : List Op} {s s' : S} {n b p : Nat} {ok : Bool} (r : Reach os s) (hb : b ≠ 0) (hs : step s (.resize b n ok) = some (p, s')) :
    (ok = true ∧ n < 18446744073709551615 → p ≠ 0 ∧ p ∉ out s.log ∧ ∀ q, q ∈ out s'.log ↔ q = p ∨ (q ≠ b ∧ q ∈ out s.log)) ∧
    (¬ (ok = true ∧ n < 18446744073709551615) → p = 0 ∧ b ∈ out s'.log ∧ out s'.log = out s.log) := by
  have i := inv_reach r
  unfold step at hs
  split at hs
  · cases hs
  dsimp only at hs
  split at hs
  on_goal 2 => cases hs
  rename_i hc
  have hm := hc.1.resolve_left hb
  have e := Option.some.inj hs
  unfold resize at e
  split at e
  · rename_i hn
    split at e
    · rename_i hok
      cases e
      refine ⟨fun _ => ⟨Nat.pos_iff_ne_zero.1 i.pos, fun h => Nat.lt_irrefl _ (i.lt _ h).2, fun q => ?_⟩, fun h => absurd ⟨hok, hn⟩ h⟩
      rw [check_log]
      show q ∈ s.next :: (out s.log).erase b ↔ _
      rw [List.mem_cons, i.nodup.mem_erase_iff]
    · rename_i hok
      cases e
      exact ⟨fun h => absurd h.1 hok, fun _ => ⟨rfl, by rw [check_log]; exact hm, by rw [check_log]; rfl⟩⟩
  · rename_i hn
    cases e
    exact ⟨fun h => absurd h.2 hn, fun _ => ⟨rfl, by rw [check_log]; exact hm, by rw [check_log]⟩⟩

/-- C84. What giving memory back does: the block is no longer out and the others are; giving `NULL` back calls no
allocator. -/
theorem C84_release {os : List Op} {s s' : S} {p x : Nat} (r : Reach os s) (hs : step s (.release p) = some (x, s')) :
    (∀ q, q ∈ out s'.log ↔ q ≠ p ∧ q ∈ out s.log) ∧ (p = 0 → s' = s) := by
  have i := inv_reach r
  unfold step at hs
  split at hs
  · cases hs
  dsimp only at hs
  split at hs
  on_goal 2 => cases hs
  cases hs
  unfold release
  split
  · rename_i h0
    refine ⟨fun q => ⟨fun h => ⟨?_, h⟩, fun h => h.2⟩, fun _ => rfl⟩
    rintro rfl; exact absurd h0 (Nat.pos_iff_ne_zero.1 (i.lt _ h).1)
  · rename_i h0
    exact ⟨fun q => i.nodup.mem_erase_iff, fun h => absurd h h0⟩

/-- C84. Resizing `NULL` is a request for memory. -/
theorem C84_resize_null {os : List Op} {s s' : S} {n p : Nat} {ok : Bool} (r : Reach os s) (hs : step s (.resize 0 n ok) = some (p, s')) :
    (ok = true ∧ n < 18446744073709551615 → p ≠ 0 ∧ p ∉ out s.log ∧ ∀ q, q ∈ out s'.log ↔ q = p ∨ q ∈ out s.log) ∧
    (¬ (ok = true ∧ n < 18446744073709551615) → p = 0 ∧ out s'.log = out s.log) := by
  unfold step at hs
  split at hs
  · cases hs
  rename_i ha
  dsimp only at hs
  split at hs
  on_goal 2 => cases hs
  have e := Option.some.inj hs
  have hr : step s (.alloc n ok) = some (alloc s n ok) := by unfold step; rw [if_neg ha]
  have h := C84_alloc (p := (alloc s n ok).1) (s' := (alloc s n ok).2) r hr
  unfold resize at e
  split at e
  · rw [if_pos rfl] at e
    cases e
    simpa [check_log] using h
  · rename_i hn
    cases e
    exact ⟨fun h => absurd h.2 hn, fun _ => ⟨rfl, by rw [check_log]⟩⟩

/-- C84. The calls can be made: unless the process was stopped, memory can be asked for, a block that is out or
`NULL` can be given back, `NULL` can be resized to any size and a block that is out to any size but zero, and
nothing else is passed. -/
theorem C84_onward {os : List Op} {s : S} (_ : Reach os s) (ha : s.aborted = false) :
    (∀ n ok, (step s (.alloc n ok)).isSome) ∧ (∀ p, (step s (.release p)).isSome ↔ p = 0 ∨ p ∈ out s.log) ∧
    (∀ p n ok, (step s (.resize p n ok)).isSome ↔ p = 0 ∨ (p ∈ out s.log ∧ n ≠ 0)) ∧
    (∀ m r f, ∃ x, step s (.setallocator m r f) = some (x, { s with malloc := m, realloc := r, free := f })) ∧
    (∀ b, ∃ x, step s (.setpanic b) = some (x, { s with panicOn := b })) := by
  refine ⟨fun n ok => ?_, fun p => ?_, fun p n ok => ?_, fun m r f => ⟨0, ?_⟩, fun b => ⟨0, ?_⟩⟩
  · simp [step, ha]
  · by_cases h : p = 0 ∨ p ∈ out s.log <;> simp [step, ha, h]
  · have : ((p = 0 ∨ p ∈ out s.log) ∧ (p = 0 ∨ n > 0)) ↔ (p = 0 ∨ (p ∈ out s.log ∧ n ≠ 0)) := by
      have h : n > 0 ↔ n ≠ 0 := Nat.pos_iff_ne_zero
      rw [h]; tauto
    rw [← this]
    by_cases h : (p = 0 ∨ p ∈ out s.log) ∧ (p = 0 ∨ n > 0) <;> simp only [step, ha, h] <;> simp
  · simp [step, ha]
  · simp [step, ha]

theorem check_aborted (s : S) (p n : Nat) : (check s p n).aborted = true ↔ s.aborted = true ∨ (p = 0 ∧ n > 0 ∧ s.panicOn = true) := by
  unfold check; split
  · rename_i h; exact ⟨fun _ => Or.inr h, fun _ => rfl⟩
  · rename_i h; exact ⟨Or.inl, fun x => x.resolve_right h⟩

theorem alloc_aborted (s : S) (n : Nat) (ok : Bool) (_ : 0 < s.next) : ((alloc s n ok).2.aborted = true ↔ s.aborted = true ∨ ((alloc s n ok).1 = 0 ∧ n > 0 ∧ s.panicOn = true)) ∧ (alloc s n ok).2.panicOn = s.panicOn := by
  unfold alloc
  split
  · split
    · exact ⟨by rw [check_aborted], (check_set _ _ _).2.2.2⟩
    · exact ⟨by rw [check_aborted], (check_set _ _ _).2.2.2⟩
  · exact ⟨by rw [check_aborted], (check_set _ _ _).2.2.2⟩

/-- C84. Running out of memory stops the process exactly when panic-on-error is set and memory was asked for
that is not had: a request that gives `NULL` for more than no bytes. No other call stops it. -/
theorem C84_panic {os : List Op} {s s' : S} {o : Op} {p : Nat} (r : Reach os s) (hs : step s o = some (p, s')) :
    s'.aborted = true ↔ s.panicOn = true ∧ p = 0 ∧ ((∃ n ok, o = .alloc n ok ∧ n > 0) ∨ ∃ b n ok, o = .resize b n ok ∧ n > 0) := by
  have i := inv_reach r
  unfold step at hs
  split at hs
  · cases hs
  rename_i ha
  cases o with
  | setallocator m r f => cases hs; simp [ha]
  | setpanic b => cases hs; simp [ha]
  | alloc n ok =>
    have e := Option.some.inj hs
    have h := (alloc_aborted s n ok i.pos).1
    rw [e] at h; rw [h]
    constructor
    · rintro (h | ⟨a, b, c⟩)
      · exact absurd h ha
      · exact ⟨c, a, Or.inl ⟨n, ok, rfl, b⟩⟩
    · rintro ⟨a, b, ⟨n', ok', h, hn⟩ | ⟨_, _, _, h, _⟩⟩
      · cases h; exact Or.inr ⟨b, hn, a⟩
      · cases h
  | resize b n ok =>
    dsimp only at hs
    split at hs
    on_goal 2 => cases hs
    have e := Option.some.inj hs
    have h : (resize s b n ok).2.aborted = true ↔ s.aborted = true ∨ ((resize s b n ok).1 = 0 ∧ n > 0 ∧ s.panicOn = true) := by
      unfold resize
      split
      · split
        · have h := alloc_aborted s n ok i.pos
          rw [check_aborted, h.1, h.2]; tauto
        · split
          · rw [check_aborted]
          · rw [check_aborted]
      · rw [check_aborted]
    rw [e] at h; rw [h]
    constructor
    · rintro (h | ⟨a, b, c⟩)
      · exact absurd h ha
      · exact ⟨c, a, Or.inr ⟨_, n, ok, rfl, b⟩⟩
    · rintro ⟨a, b, ⟨_, _, h, _⟩ | ⟨_, n', ok', h, hn⟩⟩
      · cases h
      · cases h; exact Or.inr ⟨b, hn, a⟩
  | release p =>
    dsimp only at hs
    split at hs
    on_goal 2 => cases hs
    cases hs
    have : (release s p).aborted = s.aborted := by unfold release; split <;> rfl
    rw [this]; simp [ha]

/-- the process is stopped by a refused request when panic-on-error is set, and is not when it is not set -/
example : (∃ s, Reach [.setpanic true, .alloc 16 false] s ∧ s.aborted = true) ∧ (∃ s, Reach [.alloc 16 false, .alloc 16 true] s ∧ s.aborted = false ∧ out s.log = [1]) :=
  ⟨⟨_, runs_reach .init (os := [.setpanic true, .alloc 16 false]) rfl, by decide⟩, ⟨_, runs_reach .init (os := [.alloc 16 false, .alloc 16 true]) rfl, by decide, by decide⟩⟩

end Neco.Mem
