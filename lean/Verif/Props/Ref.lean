import Verif.Proof.Ref

/-! # C19: references to channels and generators -/

namespace Neco.Ref

/-- **C19** while there is a reference to a channel its memory is there: not freed, not in the pool, and no other channel is in it -/
theorem C19_usable_partial {s : S} (r : Reach Few s) {b : Nat} (h : 0 < (s.chans b).refs) : (s.chans b).loc = .out ∧ (s.chans b).frees = 0 ∧ b ∉ s.pool ∧ (s.chans b).rc = (s.chans b).refs - 1 := by
  have hi := reach_inv r
  have ho := (hi.out b).mpr h
  refine ⟨ho, ?_, ?_, (hi.rc b ho).1⟩
  · rw [hi.fr, ho]; simp
  · rw [hi.pl, ho]; simp

/-- **C19** when all references to a channel were released its memory was freed, exactly once, or it is in the pool, exactly once -/
theorem C19_once_partial {s : S} (r : Reach Few s) {b : Nat} (hm : b < s.next) (h : (s.chans b).refs = 0) :
    ((s.chans b).frees = 1 ∧ b ∉ s.pool) ∨ ((s.chans b).frees = 0 ∧ s.pool.count b = 1 ∧ s.ended = false) := by
  have hi := reach_inv r
  cases hl : (s.chans b).loc with
  | never => have := (hi.new b).mpr hl; omega
  | out => have := (hi.out b).mp hl; omega
  | freed =>
    left
    refine ⟨by rw [hi.fr, hl]; simp, by rw [hi.pl, hl]; simp⟩
  | pool =>
    right
    have hp := (hi.pl b).mpr hl
    refine ⟨by rw [hi.fr, hl]; simp, ?_, ?_⟩
    · have h1 := List.count_pos_iff.mpr hp
      have h2 := List.nodup_iff_count.mp hi.nd b
      omega
    · cases he : s.ended with
      | false => rfl
      | true => rw [hi.ended he] at hp; cases hp

/-- **C19** when the runtime has ended, the memory of every channel whose references were all released was freed exactly once -/
theorem C19_end_partial {s : S} (r : Reach Few s) (he : s.ended = true) {b : Nat} (hm : b < s.next) (h : (s.chans b).refs = 0) : (s.chans b).frees = 1 := by
  rcases C19_once_partial r hm h with h | h
  · exact h.1
  · rw [he] at h; exact absurd h.2.2 (by decide)

/-- **C19** a new channel, recycled or not, is in memory nobody has a reference to, with room for its messages and one more (a generator needs none), has one reference, and is empty, open, and nobody waits for it; no other channel changes -/
theorem C19_make_partial {s : S} (r : Reach Few s) {ds cap : Nat} {gen mem : Bool} {b : Nat} {s' : S} (h : make s ds cap gen mem = (some b, s')) :
    (s.chans b).refs = 0 ∧ (s'.chans b).head = {} ∧ (s'.chans b).rc = 0 ∧ (s'.chans b).msgsize = ds ∧ (s'.chans b).bufcap = cap ∧ (s'.chans b).refs = 1 ∧ (s'.chans b).loc = .out ∧
    (gen = false → (s'.chans b).room = ds * (cap + 1)) ∧ ∀ x, x ≠ b → s'.chans x = s.chans x := by
  have hi := reach_inv r
  unfold make at h
  split at h
  · cases h
  · rename_i hn
    simp only [INT_MAX] at hn
    have hsz : gen = false → ringSize ds cap gen = ds * (cap + 1) := by
      intro e
      subst e
      have h1 : ds ≤ 2 ^ 31 - 1 := by omega
      have h2 : cap + 1 ≤ 2 ^ 31 := by omega
      have := Nat.mul_le_mul h1 h2
      unfold ringSize
      rw [if_neg (by decide), Nat.mod_eq_of_lt (by omega)]
    have new : ∀ {s'}, (some s.next, put { s with next := s.next + 1 } s.next (fresh ds cap (ringSize ds cap gen) 0)) = (some b, s') →
        (s.chans b).refs = 0 ∧ (s'.chans b).head = {} ∧ (s'.chans b).rc = 0 ∧ (s'.chans b).msgsize = ds ∧ (s'.chans b).bufcap = cap ∧ (s'.chans b).refs = 1 ∧ (s'.chans b).loc = .out ∧
        (gen = false → (s'.chans b).room = ds * (cap + 1)) ∧ ∀ x, x ≠ b → s'.chans x = s.chans x := by
      intro s' h
      simp only [Prod.mk.injEq, Option.some.injEq] at h
      obtain ⟨rfl, rfl⟩ := h
      have hl := (hi.new s.next).mp (Nat.le_refl _)
      refine ⟨?_, by simp [fresh], by simp [fresh], by simp [fresh], by simp [fresh], by simp [fresh], by simp [fresh], fun e => by simp [fresh, hsz e], fun x hx => by simp [hx]⟩
      have := hi.out s.next
      rw [hl] at this
      simpa using this
    dsimp only at h
    split at h
    · rename_i b' rest hp
      split at h
      · rename_i hz
        simp only [Prod.mk.injEq, Option.some.injEq] at h
        obtain ⟨rfl, rfl⟩ := h
        have hl := (hi.pl b').mp (by rw [hp]; simp)
        refine ⟨?_, by simp [fresh], by simp [fresh], by simp [fresh], by simp [fresh], by simp [fresh], by simp [fresh], fun e => ?_, fun x hx => by simp [hx]⟩
        · have := hi.out b'
          rw [hl] at this
          simpa using this
        · rw [← hsz e, hz]
          simp [fresh, hi.room b' (hi.pm b' hl)]
      · split at h
        · exact new h
        · cases h
    · split at h
      · exact new h
      · cases h

/-- **C19** no reference count overflows, and the pool is never written outside of its memory -/
theorem C19_safe_partial {s : S} (r : Reach Few s) : s.fault = false := (reach_inv r).flt

theorem zchanpush_cap {s : S} {b : Nat} {mem : Bool} (h : s.pool.length ≤ s.poolcap ∧ s.poolcap ∈ [0, 16, 32, 64, 128, 256]) :
    (zchanpush s b mem).2.pool.length ≤ (zchanpush s b mem).2.poolcap ∧ (zchanpush s b mem).2.poolcap ∈ [0, 16, 32, 64, 128, 256] := by
  obtain ⟨h1, h2⟩ := h
  unfold zchanpush
  dsimp only
  simp only [List.mem_cons, List.not_mem_nil, or_false] at h2 ⊢
  split
  · split
    · exact ⟨h1, h2⟩
    · split
      · simp only [List.length_cons, put]
        split <;> omega
      · exact ⟨h1, h2⟩
  · simp only [List.length_cons, put]
    exact ⟨by omega, h2⟩

/-- **C19** at most 256 unused channels are kept -/
theorem C19_pool {s : S} (r : Reach any s) : s.pool.length ≤ 256 := by
  suffices h : s.pool.length ≤ s.poolcap ∧ s.poolcap ∈ [0, 16, 32, 64, 128, 256] by
    obtain ⟨h1, h2⟩ := h
    simp only [List.mem_cons, List.not_mem_nil, or_false] at h2
    omega
  induction r with
  | init => simp
  | @step s s' r a h hs ih =>
    cases a with
    | make ds cap gen mem =>
      simp only [step] at hs
      split at hs
      · cases hs
      · cases hs
        unfold make
        repeat' (first | split | dsimp only)
        all_goals first | exact ih | skip
        all_goals (rename_i hp _ _; rw [hp] at ih; simp only [List.length_cons] at ih; exact ⟨Nat.le_of_succ_le ih.1, ih.2⟩)
    | retain b => simp only [step] at hs; split at hs <;> cases hs; exact ih
    | other b h => simp only [step] at hs; split at hs <;> cases hs; exact ih
    | release b mem =>
      simp only [step] at hs
      split at hs <;> cases hs
      unfold release
      dsimp only
      split
      · split
        · exact ih
        · split
          · exact zchanpush_cap ih
          · exact zchanpush_cap ih
      · exact ih
    | finish =>
      simp only [step] at hs
      split at hs <;> cases hs
      have : ∀ (l : List Nat) (s : S), (l.foldl free s).poolcap = s.poolcap := by
        intro l
        induction l with
        | nil => intro s; rfl
        | cons x l ih => intro s; rw [List.foldl_cons, ih]; rfl
      simp only [freePool, List.length_nil, Nat.zero_le, true_and, this]
      exact ih.2

/-- **False of the code** for more references than an `int` can count: the count overflows -/
theorem C19_safe_not_general : ¬ ∀ s, Reach any s → s.fault = false := by
  intro h
  have key : ∀ k : Nat, ∃ s, Reach any s ∧ (s.chans 0).rc = k ∧ (s.chans 0).refs = k + 1 ∧ s.ended = false := by
    intro k
    induction k with
    | zero => exact ⟨_, .step .init (.make 4 0 false true) trivial rfl, rfl, rfl, rfl⟩
    | succ k ih =>
      obtain ⟨s, r, h1, h2, h3⟩ := ih
      refine ⟨retain s 0, .step r (.retain 0) trivial ?_, ?_, ?_, h3⟩
      · simp [step, h3, h2]
      · simp [retain, h1]
      · simp [retain, h2]
  obtain ⟨s, r, h1, h2, h3⟩ := key INT_MAX
  have := h (retain s 0) (.step r (.retain 0) trivial (by simp [step, h3, h2]))
  simp [retain, h1] at this
  omega

/-- **C19** a channel is made whenever the sizes fit in an `int` and there is memory (and not if a size does not fit) -/
theorem C19_made (s : S) (ds cap : Nat) (gen : Bool) :
    (ds ≤ 2 ^ 31 - 1 → cap ≤ 2 ^ 31 - 1 → ∃ b, (make s ds cap gen true).1 = some b) ∧ (∀ mem, 2 ^ 31 ≤ ds ∨ 2 ^ 31 ≤ cap → make s ds cap gen mem = (none, s)) := by
  have e : INT_MAX = 2 ^ 31 - 1 := by decide
  constructor
  · intro h1 h2
    unfold make
    rw [if_neg (by rw [e]; omega)]
    dsimp only
    repeat' split
    all_goals first | exact ⟨_, rfl⟩ | contradiction
  · intro mem h
    unfold make
    rw [if_pos (by rw [e]; omega)]

/-- run a list of steps -/
def runs : List Act → S → Option S
  | [], s => some s
  | a :: as, s => match step s a with
    | none => none
    | some s' => runs as s'

/-- the steps keep the number of references small -/
def fewB : List Act → S → Bool
  | [], _ => true
  | a :: as, s => (match a with | .retain b => decide ((s.chans b).refs < 2 ^ 31) | _ => true) && (match step s a with | none => true | some s' => fewB as s')

theorem runs_reach : ∀ {as : List Act} {s s' : S}, Reach Few s → fewB as s = true → runs as s = some s' → Reach Few s'
  | [], s, s', r, _, h => by simp [runs] at h; subst h; exact r
  | a :: as, s, s', r, hf, h => by
    unfold runs at h
    simp only [fewB, Bool.and_eq_true] at hf
    split at h
    · cases h
    · rename_i s1 hs
      rw [hs] at hf
      refine runs_reach (.step r a ?_ hs) hf.2 h
      cases a with
      | retain b => have := of_decide_eq_true hf.1; exact this
      | _ => trivial

/-- two channels without messages and one with: one is retained, closed and released twice, and its memory used for a generator -/
def exRefs : List Act :=
  [.make 0 3 false true, .make 8 3 false true, .retain 0, .other 0 { sclosed := true, buflen := 2 }, .release 0 true, .release 1 true, .release 0 true, .make 16 0 true true]
example : ∃ s, Reach Few s ∧ (s.chans 0).refs = 1 ∧ (s.chans 0).msgsize = 16 ∧ (s.chans 0).head = {} ∧ (s.chans 1).frees = 1 ∧ s.pool = [] := by
  refine ⟨_, runs_reach (as := exRefs) .init (by decide +kernel) rfl, ?_⟩
  decide +kernel
example : ∃ s, Reach Few s ∧ s.ended = true ∧ (s.chans 0).frees = 1 ∧ (s.chans 0).refs = 0 ∧ s.next = 1 := by
  refine ⟨_, runs_reach (as := [.make 0 3 false true, .release 0 true, .finish]) .init (by decide +kernel) rfl, ?_⟩
  decide +kernel

end Neco.Ref
