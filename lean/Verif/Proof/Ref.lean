import Verif.Spec.Ref

/-! # Lemmas: references to channels -/

namespace Neco.Ref

structure Inv (s : S) : Prop where
  flt : s.fault = false
  out : ∀ b, (s.chans b).loc = .out ↔ 0 < (s.chans b).refs
  rc : ∀ b, (s.chans b).loc = .out → (s.chans b).rc = (s.chans b).refs - 1 ∧ (s.chans b).refs ≤ 2 ^ 31
  pl : ∀ b, b ∈ s.pool ↔ ((s.chans b).loc = .pool)
  nd : s.pool.Nodup
  fr : ∀ b, (s.chans b).frees = if (s.chans b).loc = .freed then 1 else 0
  new : ∀ b, s.next ≤ b ↔ (s.chans b).loc = .never
  cap : s.pool.length ≤ s.poolcap
  room : ∀ b, (s.chans b).msgsize = 0 → (s.chans b).room = 0
  ended : s.ended = true → s.pool = []
  pm : ∀ b, (s.chans b).loc = .pool → (s.chans b).msgsize = 0

@[simp] theorem put_chans (s : S) (b : Nat) (c : Chan) (x : Nat) : (put s b c).chans x = if x = b then c else s.chans x := rfl
@[simp] theorem put_next (s : S) (b : Nat) (c : Chan) : (put s b c).next = s.next := rfl
@[simp] theorem put_pool (s : S) (b : Nat) (c : Chan) : (put s b c).pool = s.pool := rfl
@[simp] theorem put_cap (s : S) (b : Nat) (c : Chan) : (put s b c).poolcap = s.poolcap := rfl
@[simp] theorem put_fault (s : S) (b : Nat) (c : Chan) : (put s b c).fault = s.fault := rfl
@[simp] theorem put_ended (s : S) (b : Nat) (c : Chan) : (put s b c).ended = s.ended := rfl

theorem ring_zero (cap : Nat) (gen : Bool) : ringSize 0 cap gen = 0 := by unfold ringSize; split <;> simp

theorem inv_new {s : S} (h : Inv s) (he : s.ended = false) (ds cap : Nat) (gen : Bool) : Inv (put { s with next := s.next + 1 } s.next (fresh ds cap (ringSize ds cap gen) 0)) := by
  have hn : (s.chans s.next).loc = .never := (h.new _).mp (Nat.le_refl _)
  refine ⟨h.flt, fun b => ?_, fun b => ?_, fun b => ?_, h.nd, fun b => ?_, fun b => ?_, h.cap, fun b => ?_, fun e => ?_, fun b => ?_⟩
  · rw [put_chans]; split
    · simp [fresh]
    · exact h.out b
  · rw [put_chans]; split
    · intro _; simp [fresh]
    · exact h.rc b
  · rw [put_chans]; split
    · rename_i e
      subst e
      simp only [put_pool, fresh]
      have := h.pl s.next
      rw [hn] at this
      simpa using this
    · exact h.pl b
  · rw [put_chans]; split
    · simp [fresh]
    · exact h.fr b
  · rw [put_chans]; split
    · rename_i e; subst e; simp [fresh]
    · rename_i e
      rw [← h.new b]
      simp only [put_next]; omega
  · rw [put_chans]; split
    · simp only [fresh]; intro e; rw [e]; exact ring_zero _ _
    · exact h.room b
  · simp only [put_ended] at e; rw [he] at e; cases e
  · rw [put_chans]; split
    · simp [fresh]
    · exact h.pm b

theorem inv_make {s : S} (h : Inv s) (he : s.ended = false) (ds cap : Nat) (gen mem : Bool) : Inv (make s ds cap gen mem).2 := by
  unfold make
  split
  · exact h
  · dsimp only
    split
    · rename_i b rest hp
      split
      · have hb : (s.chans b).loc = .pool := (h.pl b).mp (by rw [hp]; simp)
        have hf : (s.chans b).frees = 0 := by rw [h.fr, hb]; simp
        have hnd := h.nd
        rw [hp, List.nodup_cons] at hnd
        refine ⟨h.flt, fun x => ?_, fun x => ?_, fun x => ?_, hnd.2, fun x => ?_, fun x => ?_, ?_, fun x => ?_, fun e => ?_, fun x => ?_⟩
        · rw [put_chans]; split
          · simp [fresh]
          · exact h.out x
        · rw [put_chans]; split
          · intro _; simp [fresh]
          · exact h.rc x
        · rw [put_chans]; split
          · rename_i e; subst e; simp [fresh, hnd.1]
          · rename_i e
            have := h.pl x
            rw [hp] at this
            simpa [e] using this
        · rw [put_chans]; split
          · simp [fresh, hf]
          · exact h.fr x
        · rw [put_chans]; split
          · rename_i e; subst e
            have := h.new x
            rw [hb] at this
            simp only [fresh]
            simpa using this
          · exact h.new x
        · have := h.cap; rw [hp] at this; simp at this ⊢; omega
        · rw [put_chans]; split
          · intro _
            exact h.room b (h.pm b hb)
          · exact h.room x
        · simp only [put_ended] at e; rw [he] at e; cases e
        · rw [put_chans]; split
          · simp [fresh]
          · exact h.pm x
      · split
        · exact inv_new h he ds cap gen
        · exact h
    · split
      · exact inv_new h he ds cap gen
      · exact h

theorem inv_retain {s : S} (h : Inv s) {b : Nat} (hb : 0 < (s.chans b).refs) (hf : (s.chans b).refs < 2 ^ 31) : Inv (retain s b) := by
  have ho := (h.out b).mpr hb
  obtain ⟨h1, h2⟩ := h.rc b ho
  unfold retain
  refine ⟨?_, fun x => ?_, fun x => ?_, fun x => ?_, h.nd, fun x => ?_, fun x => ?_, h.cap, fun x => ?_, h.ended, fun x => ?_⟩
  · have hx : ¬ ((s.chans b).rc + 1 > (INT_MAX : Int)) := by simp only [INT_MAX]; omega
    simp only [put_fault, h.flt, Bool.false_or]
    exact decide_eq_false hx
  · simp only [put_chans]; split
    · rename_i e; subst e; simp [ho]
    · exact h.out x
  · simp only [put_chans]; split
    · intro _; dsimp only; omega
    · exact h.rc x
  · simp only [put_chans, put_pool]; split
    · rename_i e; subst e; exact h.pl x
    · exact h.pl x
  · simp only [put_chans]; split
    · rename_i e; subst e; exact h.fr x
    · exact h.fr x
  · simp only [put_chans, put_next]; split
    · rename_i e; subst e; exact h.new x
    · exact h.new x
  · simp only [put_chans]; split
    · rename_i e; subst e; exact h.room x
    · exact h.room x
  · simp only [put_chans]; split
    · rename_i e; subst e; exact h.pm x
    · exact h.pm x

theorem inv_other {s : S} (h : Inv s) (b : Nat) (hd : Head) : Inv (put s b { s.chans b with head := hd }) := by
  refine ⟨h.flt, fun x => ?_, fun x => ?_, fun x => ?_, h.nd, fun x => ?_, fun x => ?_, h.cap, fun x => ?_, h.ended, fun x => ?_⟩
  · rw [put_chans]; split
    · rename_i e; subst e; exact h.out x
    · exact h.out x
  · rw [put_chans]; split
    · rename_i e; subst e; exact h.rc x
    · exact h.rc x
  · rw [put_chans]; split
    · rename_i e; subst e; exact h.pl x
    · exact h.pl x
  · rw [put_chans]; split
    · rename_i e; subst e; exact h.fr x
    · exact h.fr x
  · rw [put_chans]; split
    · rename_i e; subst e; exact h.new x
    · exact h.new x
  · rw [put_chans]; split
    · rename_i e; subst e; exact h.room x
    · exact h.room x
  · rw [put_chans]; split
    · rename_i e; subst e; exact h.pm x
    · exact h.pm x

/-- between the last release and the end of `chan_fastrelease` -/
structure Mid (s : S) (b : Nat) : Prop where
  flt : s.fault = false
  me : (s.chans b).loc = .out ∧ (s.chans b).refs = 0 ∧ (s.chans b).frees = 0
  out : ∀ x, x ≠ b → ((s.chans x).loc = .out ↔ 0 < (s.chans x).refs)
  rc : ∀ x, x ≠ b → (s.chans x).loc = .out → (s.chans x).rc = (s.chans x).refs - 1 ∧ (s.chans x).refs ≤ 2 ^ 31
  pl : ∀ x, x ∈ s.pool ↔ ((s.chans x).loc = .pool)
  nd : s.pool.Nodup
  fr : ∀ x, (s.chans x).frees = if (s.chans x).loc = .freed then 1 else 0
  new : ∀ x, s.next ≤ x ↔ (s.chans x).loc = .never
  cap : s.pool.length ≤ s.poolcap
  room : ∀ x, (s.chans x).msgsize = 0 → (s.chans x).room = 0
  ended : s.ended = false
  pm : ∀ x, (s.chans x).loc = .pool → (s.chans x).msgsize = 0

theorem mid_free {s : S} {b : Nat} (h : Mid s b) : Inv (free s b) := by
  obtain ⟨m1, m2, m3⟩ := h.me
  unfold free
  refine ⟨?_, fun x => ?_, fun x => ?_, fun x => ?_, h.nd, fun x => ?_, fun x => ?_, h.cap, fun x => ?_, fun e => ?_, fun x => ?_⟩
  · simp [h.flt, m1]
  · simp only [put_chans]; split
    · simp [m2]
    · rename_i e; exact h.out x e
  · simp only [put_chans]; split
    · intro e; simp at e
    · rename_i e; exact h.rc x e
  · simp only [put_chans, put_pool]; split
    · rename_i e; subst e
      have := h.pl x
      rw [m1] at this
      simpa using this
    · exact h.pl x
  · simp only [put_chans]; split
    · simp [m3]
    · exact h.fr x
  · simp only [put_chans, put_next]; split
    · rename_i e; subst e
      have := h.new x
      rw [m1] at this
      simpa using this
    · exact h.new x
  · simp only [put_chans]; split
    · rename_i e; subst e; exact h.room x
    · exact h.room x
  · simp only [put_ended] at e; rw [h.ended] at e; cases e
  · simp only [put_chans]; split
    · intro e; simp at e
    · exact h.pm x

theorem mid_push {s : S} {b : Nat} (h : Mid s b) (hc : s.pool.length < s.poolcap) (hm : (s.chans b).msgsize = 0) :
    Inv { put s b { s.chans b with loc := .pool } with pool := b :: s.pool, fault := s.fault || decide (¬ s.pool.length < s.poolcap) } := by
  obtain ⟨m1, m2, m3⟩ := h.me
  have hb : b ∉ s.pool := by rw [h.pl, m1]; simp
  refine ⟨?_, fun x => ?_, fun x => ?_, fun x => ?_, List.nodup_cons.mpr ⟨hb, h.nd⟩, fun x => ?_, fun x => ?_, ?_, fun x => ?_, fun e => ?_, fun x => ?_⟩
  · simp [h.flt, hc]
  · simp only [put_chans]; split
    · simp [m2]
    · rename_i e; exact h.out x e
  · simp only [put_chans]; split
    · intro e; simp at e
    · rename_i e; exact h.rc x e
  · simp only [put_chans, List.mem_cons]; split
    · rename_i e; simp [e]
    · rename_i e; rw [h.pl x]; simp [e]
  · simp only [put_chans]; split
    · simp [m3]
    · exact h.fr x
  · simp only [put_chans, put_next]; split
    · rename_i e; subst e
      have := h.new x
      rw [m1] at this
      simpa using this
    · exact h.new x
  · simp only [List.length_cons, put_cap]; omega
  · simp only [put_chans]; split
    · rename_i e; subst e; exact h.room x
    · exact h.room x
  · simp only [put_ended] at e; rw [h.ended] at e; cases e
  · simp only [put_chans]; split
    · rename_i e; subst e; intro _; exact hm
    · exact h.pm x

theorem inv_release {s : S} (h : Inv s) (he : s.ended = false) {b : Nat} (hb : 0 < (s.chans b).refs) (mem : Bool) : Inv (release s b mem) := by
  have ho := (h.out b).mpr hb
  obtain ⟨h1, h2⟩ := h.rc b ho
  unfold release
  dsimp only
  by_cases hl : (s.chans b).refs = 1
  · have hm : Mid (put s b { s.chans b with rc := (s.chans b).rc - 1, refs := (s.chans b).refs - 1 }) b := by
      refine ⟨h.flt, ?_, fun x hx => ?_, fun x hx => ?_, fun x => ?_, h.nd, fun x => ?_, fun x => ?_, h.cap, fun x => ?_, he, fun x => ?_⟩
      · simp only [put_chans, if_true]
        refine ⟨ho, by omega, ?_⟩
        rw [h.fr, ho]; simp
      · rw [put_chans, if_neg hx]; exact h.out x
      · rw [put_chans, if_neg hx]; exact h.rc x
      · rw [put_chans]; split
        · rename_i e; subst e; exact h.pl x
        · exact h.pl x
      · rw [put_chans]; split
        · rename_i e; subst e; exact h.fr x
        · exact h.fr x
      · rw [put_chans]; split
        · rename_i e; subst e; exact h.new x
        · exact h.new x
      · rw [put_chans]; split
        · rename_i e; subst e; exact h.room x
        · exact h.room x
      · rw [put_chans]; split
        · rename_i e; subst e; exact h.pm x
        · exact h.pm x
    rw [if_pos (by omega)]
    generalize hs' : put s b { s.chans b with rc := (s.chans b).rc - 1, refs := (s.chans b).refs - 1 } = s' at hm
    have hms : (s'.chans b).msgsize = (s.chans b).msgsize := by rw [← hs']; simp
    split
    · exact mid_free hm
    · rename_i hz
      rw [← hms] at hz
      unfold zchanpush
      dsimp only
      split
      · rename_i hfull
        split
        · exact mid_free hm
        · cases mem with
          | true =>
            simp only [if_true]
            have hc : Mid { s' with poolcap := if s'.poolcap = 0 then 16 else s'.poolcap * 2 } b := by
              refine ⟨hm.flt, hm.me, hm.out, hm.rc, hm.pl, hm.nd, hm.fr, hm.new, ?_, hm.room, hm.ended, hm.pm⟩
              have := hm.cap
              dsimp only; split <;> omega
            exact mid_push hc (by dsimp only; split <;> omega) (by dsimp only; omega)
          | false => exact mid_free hm
      · rename_i hfull
        simp only [if_true]
        exact mid_push hm (by have := hm.cap; omega) (by omega)
  · rw [if_neg (by omega)]
    refine ⟨h.flt, fun x => ?_, fun x => ?_, fun x => ?_, h.nd, fun x => ?_, fun x => ?_, h.cap, fun x => ?_, h.ended, fun x => ?_⟩
    · rw [put_chans]; split
      · rename_i e; subst e; dsimp only; rw [ho]; simp; omega
      · exact h.out x
    · rw [put_chans]; split
      · intro _; dsimp only; omega
      · exact h.rc x
    · rw [put_chans]; split
      · rename_i e; subst e; exact h.pl x
      · exact h.pl x
    · rw [put_chans]; split
      · rename_i e; subst e; exact h.fr x
      · exact h.fr x
    · rw [put_chans]; split
      · rename_i e; subst e; exact h.new x
      · exact h.new x
    · rw [put_chans]; split
      · rename_i e; subst e; exact h.room x
      · exact h.room x
    · rw [put_chans]; split
      · rename_i e; subst e; exact h.pm x
      · exact h.pm x

/-- freeing all of a list -/
theorem foldl_free : ∀ (l : List Nat) (s : S), l.Nodup → (∀ b ∈ l, (s.chans b).loc = .pool) →
    (l.foldl free s).fault = s.fault ∧ (l.foldl free s).next = s.next ∧ (l.foldl free s).poolcap = s.poolcap ∧
    ∀ x, (l.foldl free s).chans x = if x ∈ l then { s.chans x with loc := .freed, frees := (s.chans x).frees + 1 } else s.chans x
  | [], s, _, _ => ⟨rfl, rfl, rfl, by simp⟩
  | b :: l, s, hn, hp => by
    rw [List.nodup_cons] at hn
    have hb := hp b (by simp)
    have hl : ∀ x ∈ l, ((free s b).chans x).loc = .pool := by
      intro x hx
      have : x ≠ b := fun e => hn.1 (e ▸ hx)
      simp only [free, put_chans, if_neg this]
      exact hp x (by simp [hx])
    obtain ⟨q1, q2, q3, q4⟩ := foldl_free l (free s b) hn.2 hl
    rw [List.foldl_cons]
    refine ⟨q1.trans ?_, q2, q3, fun x => ?_⟩
    · simp [free, hb]
    · rw [q4 x]
      by_cases e : x = b
      · subst e
        rw [if_neg hn.1, if_pos (by simp)]
        simp [free]
      · simp [free, e]

theorem inv_finish {s : S} (h : Inv s) : Inv (freePool s) := by
  obtain ⟨q1, q2, q3, q4⟩ := foldl_free s.pool s h.nd (fun b hb => (h.pl b).mp hb)
  unfold freePool
  refine ⟨q1.trans h.flt, fun x => ?_, fun x => ?_, fun x => ?_, List.nodup_nil, fun x => ?_, fun x => ?_, Nat.zero_le _, fun x => ?_, fun _ => rfl, fun x => ?_⟩ <;> dsimp only <;> rw [q4 x]
  · split
    · rename_i hx
      have := (h.pl x).mp hx
      have h2 := h.out x
      rw [this] at h2
      simpa using h2
    · exact h.out x
  · split
    · intro e; simp at e
    · exact h.rc x
  · split
    · simp
    · rename_i hx
      have := h.pl x
      simpa [hx] using this
  · split
    · rename_i hx
      have := h.fr x
      rw [(h.pl x).mp hx] at this
      simp at this
      simp [this]
    · exact h.fr x
  · rw [q2]
    split
    · rename_i hx
      have := h.new x
      rw [(h.pl x).mp hx] at this
      simpa using this
    · exact h.new x
  · split
    · exact h.room x
    · exact h.room x
  · split
    · intro e; simp at e
    · exact h.pm x

theorem reach_inv {s : S} (r : Reach Few s) : Inv s := by
  induction r with
  | init =>
    refine ⟨rfl, fun b => ?_, fun b e => ?_, fun b => ?_, List.nodup_nil, fun b => ?_, fun b => ?_, Nat.le_refl _, fun b _ => rfl, fun _ => rfl, fun b e => ?_⟩ <;> simp_all
  | @step s s' r a h hs ih =>
    cases a with
    | make ds cap gen mem =>
      simp only [step] at hs
      split at hs
      · cases hs
      · rename_i he; cases hs; exact inv_make ih (by simpa using he) _ _ _ _
    | retain b =>
      simp only [step] at hs
      split at hs
      · cases hs
      · rename_i he; cases hs; exact inv_retain ih (by omega) h
    | release b mem =>
      simp only [step] at hs
      split at hs
      · cases hs
      · rename_i he
        have h1 : s.ended = false := by simp at he; exact he.1
        cases hs; exact inv_release ih h1 (by omega) _
    | other b hd =>
      simp only [step] at hs
      split at hs
      · cases hs
      · cases hs; exact inv_other ih b hd
    | finish =>
      simp only [step] at hs
      split at hs
      · cases hs
      · cases hs; exact inv_finish ih

end Neco.Ref
