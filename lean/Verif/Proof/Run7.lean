import Verif.Proof.Run6

/-! # The life of a runtime: signal handlers -/

namespace Neco.Run

/-- the pieces of `run` in which only the main thread is -/
def mainOnly : Pc → Bool
  | .alt => true
  | .set _ => true
  | .unset _ => true
  | _ => false

/-- between the allocation of the signal stack and the tear-down -/
def between : Pc → Bool
  | .alt => true
  | .set _ => true
  | .work => true
  | .start => true
  | .run => true
  | .fin => true
  | _ => false

structure InvS (w : W) (t : Nat) : Prop where
  only : mainOnly (w.th t).pc = true → t = 0
  stk : t = 0 → between (w.th t).pc = true → ∃ r b, (w.th t).rt = some r ∧ r.sigstack = some b
  un : ∀ k, (w.th t).pc = .unset k → ∃ r b, (w.th t).rt = some r ∧ r.sigstack = some b

theorem InvS.congr {w w' : W} {t : Nat} (s : InvS w t) (hp : (w'.th t).pc = (w.th t).pc)
    (hr : ∀ r, (w.th t).rt = some r → ∃ r', (w'.th t).rt = some r' ∧ r'.sigstack = r.sigstack) : InvS w' t := by
  obtain ⟨s1, s2, s3⟩ := s
  refine ⟨fun h => s1 (by rwa [hp] at h), fun h1 h2 => ?_, fun k hk => ?_⟩
  · rw [hp] at h2
    obtain ⟨r, b, h3, h4⟩ := s2 h1 h2
    obtain ⟨r', h5, h6⟩ := hr r h3
    exact ⟨r', b, h5, h6.trans h4⟩
  · rw [hp] at hk
    obtain ⟨r, b, h3, h4⟩ := s3 k hk
    obtain ⟨r', h5, h6⟩ := hr r h3
    exact ⟨r', b, h5, h6.trans h4⟩

theorem step_invS {w w' : W} {a : Act} (i : Inv w) (s : ∀ t, InvS w t) (h : step w a = some w') : ∀ t, InvS w' t := by
  intro u
  have su := s u
  cases step_cases i h with
  | tau t ok r hr k tk =>
    by_cases e : u = t
    · subst e
      have hm := (i.th u).main r hr
      obtain ⟨s1, s2, s3⟩ := su
      cases tk <;> constructor <;> simp_all [mainOnly, between]
      all_goals first
        | grind
        | (cases hq : r.sigstack <;> simp_all)
    · exact su.congr (by rw [k.other u e]) (fun r h => ⟨r, by rw [k.other u e]; exact h, rfl⟩)
  | callNo t hp ht hh hl hi hs =>
    have ht := ht u
    by_cases e : u = t
    · subst e; rw [if_pos rfl] at ht; exact su.congr (by rw [ht]) (fun r h => ⟨r, by rw [ht]; exact h, rfl⟩)
    · rw [if_neg e] at ht; exact su.congr (by rw [ht]) (fun r h => ⟨r, by rw [ht]; exact h, rfl⟩)
  | call t b hp ht hh hl hi hs =>
    have ht := ht u
    by_cases e : u = t
    · subst e
      rw [if_pos rfl] at ht
      constructor <;> rw [ht] <;> simp [mainOnly, between]
    · rw [if_neg e] at ht; exact su.congr (by rw [ht]) (fun r h => ⟨r, by rw [ht]; exact h, rfl⟩)
  | rt a t r r' hr h1 h2 h3 ht hh hl hi hs =>
    have ht := ht u
    by_cases e : u = t
    · subst e; rw [if_pos rfl] at ht
      exact su.congr (by rw [ht]) (fun r1 h => ⟨r', by rw [ht], by rw [hr] at h; cases h; exact h1⟩)
    · rw [if_neg e] at ht; exact su.congr (by rw [ht]) (fun r h => ⟨r, by rw [ht]; exact h, rfl⟩)
  | finish t r hr hp ht hh hl hi hs =>
    have ht := ht u
    by_cases e : u = t
    · subst e
      rw [if_pos rfl] at ht
      refine ⟨fun h => ?_, fun h1 _ => ?_, fun k hk => ?_⟩
      · rw [ht] at h; cases h
      · obtain ⟨r1, b, h2, h3⟩ := su.stk h1 (by rw [hp]; rfl)
        exact ⟨r1, b, by rw [ht]; exact h2, h3⟩
      · rw [ht] at hk; cases hk
    · rw [if_neg e] at ht; exact su.congr (by rw [ht]) (fun r h => ⟨r, by rw [ht]; exact h, rfl⟩)
  | signal t n hw =>
    rcases deliver_th w t n u with g | ⟨r, q, hr, g⟩ <;> rw [← hw] at g
    · exact su.congr (by rw [g]) (fun r h => ⟨r, by rw [g]; exact h, rfl⟩)
    · exact su.congr (by rw [g]) (fun r1 h => ⟨_, by rw [g], by rw [hr] at h; cases h; rfl⟩)
  | sigaction n d hd ht hh hl hi hs => exact su.congr (by rw [ht]) (fun r h => ⟨r, by rw [ht]; exact h, rfl⟩)
  | alt t b ht hb hh hl hi hs =>
    have ht := ht u
    by_cases e : u = t
    · subst e; rw [if_pos rfl] at ht; exact su.congr (by rw [ht]) (fun r h => ⟨r, by rw [ht]; exact h, rfl⟩)
    · rw [if_neg e] at ht; exact su.congr (by rw [ht]) (fun r h => ⟨r, by rw [ht]; exact h, rfl⟩)
  | none a ht hh hl hi hs => exact su.congr (by rw [ht]) (fun r h => ⟨r, by rw [ht]; exact h, rfl⟩)

theorem reach_invS {p : W → Act → Prop} {w : W} (r : Reach p w) : ∀ t, InvS w t := by
  induction r with
  | init => intro t; constructor <;> simp [init, mainOnly, between]
  | step r _ h ih => exact step_invS (reach_inv r) ih h

/-- the runtime of the main thread has saved the disposition of `n` and did not restore it -/
def saved (p : Pc) (r : Rtm) (n : Nat) : Bool :=
  match p with
  | .set k => decide (n ∈ sigs.take k)
  | .work => decide (n ∈ sigs)
  | .start => decide (n ∈ sigs)
  | .run => decide (n ∈ sigs)
  | .fin => decide (n ∈ sigs)
  | .zch => r.sigstack.isSome && decide (n ∈ sigs)
  | .free => r.sigstack.isSome && decide (n ∈ sigs)
  | .unset k => decide (n ∈ sigs.drop k)
  | _ => false

/-- the disposition of `n` that the program chose -/
def original (w : W) (n : Nat) : Disp :=
  match (w.th 0).rt with
  | none => w.handler n
  | some r => if saved (w.th 0).pc r n = true then r.sigold n else w.handler n

theorem sigs_nodup : sigs.Nodup := by decide

theorem take_step {k n : Nat} (h : sigs[k]? = some n) (x : Nat) : x ∈ sigs.take (k + 1) ↔ x = n ∨ x ∈ sigs.take k := by
  rw [List.take_add_one, h]
  simp [or_comm]

theorem take_new {k n : Nat} (h : sigs[k]? = some n) : n ∉ sigs.take k := by
  intro hm
  obtain ⟨j, hj⟩ := List.mem_take_iff_getElem.mp hm
  obtain ⟨hlt, e⟩ := hj
  obtain ⟨hk, e'⟩ := List.getElem?_eq_some_iff.mp h
  have hjk : j < k := by omega
  exact List.pairwise_iff_getElem.mp sigs_nodup j k (by omega) hk hjk (e.trans e'.symm)

theorem drop_step {k n : Nat} (h : sigs[k]? = some n) (x : Nat) : x ∈ sigs.drop k ↔ x = n ∨ x ∈ sigs.drop (k + 1) := by
  obtain ⟨hk, e'⟩ := List.getElem?_eq_some_iff.mp h
  rw [List.drop_eq_getElem_cons hk, e']
  simp

theorem drop_new {k n : Nat} (h : sigs[k]? = some n) : n ∉ sigs.drop (k + 1) := by
  obtain ⟨hk, e'⟩ := List.getElem?_eq_some_iff.mp h
  have := sigs_nodup.drop (i := k)
  rw [List.drop_eq_getElem_cons hk, e'] at this
  exact (List.nodup_cons.mp this).1

theorem take_all {k : Nat} (h : sigs[k]? = none) : sigs.take k = sigs := List.take_of_length_le (List.getElem?_eq_none_iff.mp h)
theorem drop_all {k : Nat} (h : sigs[k]? = none) : sigs.drop k = [] := List.drop_of_length_le (List.getElem?_eq_none_iff.mp h)

theorem original_congr {w w' : W} {n : Nat} (h0 : w'.th 0 = w.th 0) (hh : w'.handler n = w.handler n) : original w' n = original w n := by
  unfold original; rw [h0, hh]

theorem step_original {w w' : W} {a : Act} {n : Nat} (i : Inv w) (s : ∀ t, InvS w t) (h : step w a = some w') (ha : ∀ d, a ≠ .sigaction n d) :
    original w' n = original w n := by
  cases step_cases i h with
  | tau t ok r hr k tk =>
    have hm := (i.th t).main r hr
    by_cases e : t = 0
    · subst e
      have s2 := (s 0).stk rfl
      have s3 := (s 0).un
      have hsg := (i.th 0).sg r hr
      unfold original
      rw [hr]
      cases tk with
      | sigOff hp hm' ht hh hl hf => simp_all
      | sigNo hp hm' ho ht hh hl hf => simp_all [saved]
      | sig hp hm' b ht hh hl hf => simp_all [saved]
      | alt hp ht hh hl hf => simp_all [saved]
      | setEnd k hp hk ht hh hl hf => simp_all [saved, take_all hk]
      | set k m hp hk ht hh hl hf =>
        rw [ht, hh, hp]
        dsimp only
        simp only [saved, decide_eq_true_eq, take_step hk]
        have hn := take_new hk
        by_cases e : n = m
        · subst e; simp [hn]
        · simp [e]
      | workNo hp ho ht hh hl hf => rw [hp] at s2; obtain ⟨r1, b, h1, h2⟩ := s2 rfl; rw [hr] at h1; cases h1; simp_all [saved]
      | work hp K ht hh hl hf => simp_all [saved]
      | startNo hp ho ht hh hl hf => rw [hp] at s2; obtain ⟨r1, b, h1, h2⟩ := s2 rfl; rw [hr] at h1; cases h1; simp_all [saved]
      | start hp b ht hh hl hf => simp_all [saved]
      | fin hp ht hh hl hf => rw [hp] at s2; obtain ⟨r1, b, h1, h2⟩ := s2 rfl; rw [hr] at h1; cases h1; simp_all [saved]
      | zch hp ht hh hl hf => simp_all [saved]
      | freeNo hp hs ht hh hl hf => simp_all [saved]
      | free hp hm' hs ht hh hl hf =>
        rw [ht, hh, hp]
        dsimp only
        have : r.sigstack.isSome = true := Option.isSome_iff_ne_none.mpr hs
        rw [hr]
        simp [saved, this]
      | unsetEnd k hp hk ht hh hl hf => simp_all [saved, drop_all hk]
      | unset k m hp hk ht hh hl hf =>
        rw [ht, hh, hp]
        dsimp only
        rw [hr]
        simp only [saved, decide_eq_true_eq, drop_step hk]
        have hn := drop_new hk
        by_cases e : n = m
        · subst e; simp [hn]
        · simp [e]
      | dl hp ht hh hl hf => simp_all [saved]
      | wfree hp ht hh hl hf => simp_all [saved]
      | rel hp ht hh hl hf => simp_all [saved]
    · have s1 := (s t).only
      refine original_congr (k.other 0 (Ne.symm e)) ?_
      cases tk <;> rename_i hh _ _ <;> simp_all [mainOnly]
  | callNo t hp ht hh hl hi hs =>
    have ht := ht 0
    unfold original
    by_cases e : 0 = t
    · subst e; rw [if_pos rfl] at ht; rw [ht, hh]
    · rw [if_neg e] at ht; rw [ht, hh]
  | call t b hp ht hh hl hi hs =>
    have ht := ht 0
    by_cases e : 0 = t
    · subst e
      have hn := (i.th 0).out.mp hp
      unfold original
      rw [if_pos rfl] at ht; rw [ht, hh, hn]
      simp [saved]
    · rw [if_neg e] at ht; exact original_congr ht (by rw [hh])
  | rt a t r r' hr h1 h2 h3 ht hh hl hi hs =>
    have ht := ht 0
    by_cases e : 0 = t
    · subst e; rw [if_pos rfl] at ht
      unfold original
      rw [ht, hh, hr]
      dsimp only
      have : saved (w.th 0).pc r' n = saved (w.th 0).pc r n := by unfold saved; rw [h1]
      rw [this, h2]
    · rw [if_neg e] at ht; exact original_congr ht (by rw [hh])
  | finish t r hr hp ht hh hl hi hs =>
    have ht := ht 0
    by_cases e : 0 = t
    · subst e
      rw [if_pos rfl] at ht
      unfold original
      rw [ht, hh, hr, hp]
      simp [saved]
    · rw [if_neg e] at ht; exact original_congr ht (by rw [hh])
  | signal t m hw =>
    have e := (deliver_same w t m).2.2.2.2.1
    rw [← hw] at e
    rcases deliver_th w t m 0 with g | ⟨r, q, hr, g⟩ <;> rw [← hw] at g
    · exact original_congr g (by rw [e])
    · unfold original
      rw [g, e, hr]
      dsimp only
      have : saved (w.th 0).pc { r with sigqueue := q } n = saved (w.th 0).pc r n := by unfold saved; rfl
      rw [this]
  | sigaction m d hd ht hh hl hi hs =>
    refine original_congr (by rw [ht]) ?_
    rw [hh]
    have : n ≠ m := fun e => ha d (by rw [e])
    simp [this]
  | alt t b ht hb hh hl hi hs =>
    have ht := ht 0
    unfold original
    by_cases e : 0 = t
    · subst e; rw [if_pos rfl] at ht; rw [ht, hh]
    · rw [if_neg e] at ht; rw [ht, hh]
  | none a ht hh hl hi hs => exact original_congr (by rw [ht]) (by rw [hh])

/-- only `run` of the main thread and the program itself change the disposition of a signal -/
theorem step_handler {w w' : W} {a : Act} {n : Nat} (i : Inv w) (s : ∀ t, InvS w t) (h : step w a = some w') (ha : ∀ d, a ≠ .sigaction n d)
    (h0 : ∀ ok, a ≠ .tau 0 ok) : w'.handler n = w.handler n := by
  cases step_cases i h with
  | tau t ok r hr k tk =>
    have e : t ≠ 0 := fun e => h0 ok (by rw [e])
    have s1 := (s t).only
    cases tk <;> rename_i hh _ _ <;> simp_all [mainOnly]
  | callNo t hp ht hh hl hi hs => rw [hh]
  | call t b hp ht hh hl hi hs => rw [hh]
  | rt a t r r' hr h1 h2 h3 ht hh hl hi hs => rw [hh]
  | finish t r hr hp ht hh hl hi hs => rw [hh]
  | signal t m hw => rw [hw, (deliver_same w t m).2.2.2.2.1]
  | sigaction m d hd ht hh hl hi hs =>
    rw [hh]
    have : n ≠ m := fun e => ha d (by rw [e])
    simp [this]
  | alt t b ht hb hh hl hi hs => rw [hh]
  | none a ht hh hl hi hs => rw [hh]

end Neco.Run
