import Verif.Proof.Obj
/-! # One runtime per object -/
namespace Neco.Obj
open Neco.Err

/-- a check that still has to look at the object -/
def Looks (l : List Check) (o : Nat) : Prop := Check.own (some o) ∈ l ∨ Check.lazy (some o) ∈ l ∨ Check.init (some o) ∈ l

structure Iso (w : W) : Prop where
  ids : Ids w
  ex : ∀ t c o, Head w t c → Uses c o → w.obj o ≠ none
  excl : ∀ t u c d o, t ≠ u → Head w t c → Head w u d → Uses c o → Uses d o → ¬ Zero w o
  use : ∀ t c l o, (w.th t).pc = .chk c l → Looks l o → Uses c o
  pend : ∀ t c l o k, (w.th t).pc = .chk c l → Check.init (some o) ∈ l → (w.th t).rt = some k → Zero w o ∨ Owned w k o
  seen : ∀ t c l o, (w.th t).pc = .chk c l → Uses c o → Looks l o ∨ ∃ k, (w.th t).rt = some k ∧ Owned w k o
  ops : ∀ t c r o, (c, r) ∈ (w.th t).ops → Uses c o → ∃ k, (w.th t).rt = some k ∧ Owned w k o
  tch : ∀ o b, w.obj o = some b → b.rtid < w.next ∧ ∀ k ∈ b.touched, k = b.rtid

theorem Owned.fn {w : W} {j k o : Nat} (h1 : Owned w j o) (h2 : Owned w k o) : j = k := by
  obtain ⟨b, hb, rfl⟩ := h1
  obtain ⟨b', hb', rfl⟩ := h2
  rw [hb] at hb'; cases hb'; rfl

/-- nothing happens to the objects but that their contents are touched by their owner or new ones appear -/
structure Keep (w w' : W) : Prop where
  old : ∀ o b, w.obj o = some b → ∃ b', w'.obj o = some b' ∧ b'.rtid = b.rtid

theorem Keep.owned {w w' : W} (H : Keep w w') {k o : Nat} (h : Owned w k o) : Owned w' k o := by
  obtain ⟨b, hb, rfl⟩ := h
  obtain ⟨b', h1, h2⟩ := H.old o b hb
  exact ⟨b', h1, h2⟩

theorem Keep.zero {w w' : W} (H : Keep w w') {o : Nat} (hex : w.obj o ≠ none) (h : Zero w' o) : Zero w o := by
  cases hb : w.obj o with
  | none => exact absurd hb hex
  | some b =>
    obtain ⟨b', h1, h2⟩ := H.old o b hb
    obtain ⟨b2, h3, h4⟩ := h
    rw [h1] at h3; cases h3
    exact ⟨b, hb, by rw [← h2]; exact h4⟩

theorem Keep.ex {w w' : W} (H : Keep w w') {o : Nat} (hex : w.obj o ≠ none) : w'.obj o ≠ none := by
  cases hb : w.obj o with
  | none => exact absurd hb hex
  | some b => obtain ⟨b', h1, h2⟩ := H.old o b hb; rw [h1]; simp

theorem Keep.refl {w w' : W} (h : w'.obj = w.obj) : Keep w w' := ⟨fun o b hb => ⟨b, by rw [h]; exact hb, rfl⟩⟩
theorem Keep.new {w w' : W} {o : Nat} {x : Obj} (ho : w.obj o = none) (h : w'.obj = (w.setO o x).obj) : Keep w w' :=
  ⟨fun p b hb => ⟨b, by rw [h, setO_ne _ _ (fun e => by rw [e, ho] at hb; cases hb)]; exact hb, rfl⟩⟩

/-- a step that keeps the objects, and for each thread keeps what it is doing or lets it do less -/
theorem Iso.keep {w w' : W} (H : Iso w) (K : Keep w w') (hids : Ids w')
    (hpc : ∀ t c l, (w'.th t).pc = .chk c l → ∃ l', (w.th t).pc = .chk c l' ∧ (w'.th t).rt = (w.th t).rt ∧
      (∀ o, Looks l o → Looks l' o ∨ (Zero w o ∧ Uses c o)) ∧ (∀ o, Looks l' o → Looks l o ∨ ∃ k, (w.th t).rt = some k ∧ Owned w k o) ∧
      (∀ o, Check.init (some o) ∈ l → Check.init (some o) ∈ l' ∨ Zero w o))
    (hops : ∀ t c r o, (c, r) ∈ (w'.th t).ops → Uses c o → ∃ k, (w'.th t).rt = some k ∧ Owned w k o)
    (htch : ∀ o b, w'.obj o = some b → b.rtid < w'.next ∧ ∀ k ∈ b.touched, k = b.rtid) : Iso w' := by
  have hd : ∀ t c, Head w' t c → Head w t c := by
    intro t c ⟨l, h⟩
    obtain ⟨l', h', _⟩ := hpc t c l h
    exact ⟨l', h'⟩
  refine ⟨hids, ?_, ?_, ?_, ?_, ?_, ?_, htch⟩
  · intro t c o h hu
    exact K.ex (H.ex t c o (hd _ _ h) hu)
  · intro t u c d o hne h1 h2 u1 u2 hz
    exact H.excl t u c d o hne (hd _ _ h1) (hd _ _ h2) u1 u2 (K.zero (H.ex t c o (hd _ _ h1) u1) hz)
  · intro t c l o h hl
    obtain ⟨l', h1, h2, h3, h4, h5⟩ := hpc t c l h
    rcases h3 o hl with h3 | h3
    · exact H.use t c l' o h1 h3
    · exact h3.2
  · intro t c l o k h hi hr
    obtain ⟨l', h1, h2, h3, h4, h5⟩ := hpc t c l h
    have hu : Uses c o := by
      rcases h3 o (.inr (.inr hi)) with h3 | h3
      · exact H.use t c l' o h1 h3
      · exact h3.2
    rcases h5 o hi with h5 | h5
    · rcases H.pend t c l' o k h1 h5 (by rw [← h2]; exact hr) with hz | ho
      · exact .inl (K.owned hz)
      · exact .inr (K.owned ho)
    · exact .inl (K.owned h5)
  · intro t c l o h hu
    obtain ⟨l', h1, h2, h3, h4, h5⟩ := hpc t c l h
    rcases H.seen t c l' o h1 hu with hs | ⟨k, hr, ho⟩
    · rcases h4 o hs with h4 | ⟨k, hr, ho⟩
      · exact .inl h4
      · exact .inr ⟨k, by rw [h2]; exact hr, K.owned ho⟩
    · exact .inr ⟨k, by rw [h2]; exact hr, K.owned ho⟩
  · intro t c r o h hu
    obtain ⟨k, hr, ho⟩ := hops t c r o h hu
    exact ⟨k, hr, K.owned ho⟩

/-- an initialisation changes no owner -/
theorem Iso.init_keep {w : W} (H : Iso w) {t c l o k b} (hp : (w.th t).pc = .chk c (.init (some o) :: l)) (hr : (w.th t).rt = some k) (hb : w.obj o = some b) :
    ∀ j p, j ≠ 0 → Owned w j p → Owned (w.setO o { rtid := k }) j p := by
  intro j p hj ⟨b', hb', hj'⟩
  by_cases hpo : p = o
  · subst hpo
    rcases H.pend t c _ p k hp (by simp) hr with ⟨b2, h2, h3⟩ | ⟨b2, h2, h3⟩
    · rw [hb'] at h2; cases h2; rw [← hj'] at hj; exact absurd h3 hj
    · rw [hb'] at h2; cases h2; exact ⟨{ rtid := k }, by simp, by rw [← hj', h3]⟩
  · exact ⟨b', by rw [setO_ne _ _ hpo]; exact hb', hj'⟩

theorem init_zero {w : W} {o p k : Nat} {b : Obj} (hk : 1 ≤ k) (_hb : w.obj o = some b) (h : Zero (w.setO o { rtid := k }) p) : Zero w p ∧ p ≠ o := by
  obtain ⟨b', h1, h2⟩ := h
  by_cases hpo : p = o
  · subst hpo; simp at h1; subst h1; simp at h2; omega
  · rw [setO_ne _ _ hpo] at h1; exact ⟨⟨b', h1, h2⟩, hpo⟩

theorem looks_checks {c : Call} {o : Nat} (h : Looks (checks c) o) : Uses c o := by
  rcases h with h | h | h
  · exact (own_obj h).1
  · exact (lazy_obj h).1
  · exact (init_obj h).1

theorem step_iso {w w' : W} {a : Act} (H : Iso w) (hc : Careful w a) (hs : step w a = some w') : Iso w' := by
  have hids := step_ids hs H.ids
  cases step_kind hs with
  | @zero o ho e =>
    subst e
    refine H.keep (Keep.new ho rfl) hids (fun t c l h => ⟨l, h, rfl, fun o h => .inl h, fun o h => .inl h, fun o h => .inl h⟩) H.ops ?_
    intro p b hb
    by_cases hpo : p = o
    · subst hpo; simp at hb; subst hb; exact ⟨H.ids.pos, by simp⟩
    · rw [setO_ne _ _ hpo] at hb; exact H.tch p b hb
  | @call t c hp e =>
    subst e
    have hne : ∀ u d, u ≠ t → (Head (w.setT t { w.th t with pc := .chk c (checks c) }) u d ↔ Head w u d) := by
      intro u d hu; simp [Head, setT_ne _ _ hu]
    have hat : ∀ d, Head (w.setT t { w.th t with pc := .chk c (checks c) }) t d → d = c := by
      intro d ⟨l, h⟩; simp at h; exact h.1.symm
    refine ⟨hids, ?_, ?_, ?_, ?_, ?_, ?_, H.tch⟩
    · intro u d o h hu
      by_cases hut : u = t
      · subst hut; rw [hat d h] at hu; exact hc.1 o hu
      · exact H.ex u d o ((hne u d hut).mp h) hu
    · intro u v d e o huv h1 h2 u1 u2 hz
      have hz' : Zero w o := hz
      by_cases hut : u = t
      · subst hut
        rw [hat d h1] at u1
        exact hc.2.1 o u1 hz' v e (Ne.symm huv) ((hne v e (Ne.symm huv)).mp h2) u2
      · by_cases hvt : v = t
        · subst hvt
          rw [hat e h2] at u2
          exact hc.2.1 o u2 hz' u d hut ((hne u d hut).mp h1) u1
        · exact H.excl u v d e o huv ((hne u d hut).mp h1) ((hne v e hvt).mp h2) u1 u2 hz'
    · intro u d l o h hl
      by_cases hut : u = t
      · subst hut; simp at h; obtain ⟨rfl, rfl⟩ := h; exact looks_checks hl
      · rw [setT_ne _ _ hut] at h; exact H.use u d l o h hl
    · intro u d l o k h hi hr
      by_cases hut : u = t
      · subst hut; simp at h hr; obtain ⟨rfl, rfl⟩ := h
        cases hb : w.obj o with
        | none => exact absurd hb (hc.1 o (init_obj hi).1)
        | some b =>
          by_cases h0 : b.rtid = 0
          · exact .inl ⟨b, hb, h0⟩
          · by_cases hk : b.rtid = k
            · exact .inr ⟨b, hb, hk⟩
            · exact absurd ⟨b, hb, h0, hk⟩ (hc.2.2 (init_obj hi).2.1 o k (init_obj hi).1 hr)
      · rw [setT_ne _ _ hut] at h hr; exact H.pend u d l o k h hi hr
    · intro u d l o h hu
      by_cases hut : u = t
      · subst hut; simp at h; obtain ⟨rfl, rfl⟩ := h; exact .inl (obj_checked hu)
      · rw [setT_ne _ _ hut] at h ⊢; exact H.seen u d l o h hu
    · intro u d r o h hu
      by_cases hut : u = t
      · subst hut; simp at h ⊢; exact H.ops _ d r o h hu
      · rw [setT_ne _ _ hut] at h ⊢; exact H.ops u d r o h hu
  | @enter t c hp e =>
    subst e
    refine H.keep (Keep.refl (by simp)) hids ?_ ?_ ?_
    · intro u d l h
      by_cases hut : u = t
      · subst hut; rw [enter_pc] at h; cases h
      · rw [enter_ne _ _ hut] at h ⊢
        exact ⟨l, h, rfl, fun o h => .inl h, fun o h => .inl h, fun o h => .inl h⟩
    · intro u d r o h hu
      by_cases hut : u = t
      · subst hut
        have hold : ∀ d r, (d, r) ∈ (w.th u).ops ∨ d = c → Uses d o → ∃ k, (w.th u).rt = some k ∧ Owned w k o := by
          intro d r h hu
          rcases h with h | rfl
          · exact H.ops u d r o h hu
          · rcases H.seen u d [] o hp hu with hl | hk
            · simp [Looks] at hl
            · exact hk
        unfold enter at h ⊢
        split at h
        · next hr =>
          simp [W.setT] at h
          obtain ⟨k, h1, h2⟩ := hold d r (by rcases h with h | h; exact .inr h.1; exact .inl h) hu
          rw [hr] at h1; cases h1
        · simp at h ⊢
          exact hold d r (by rcases h with h | h; exact .inr h.1; exact .inl h) hu
      · rw [enter_ne _ _ hut] at h ⊢; exact H.ops u d r o h hu
    · intro o b hb
      rw [enter_obj] at hb
      have := H.tch o b hb
      refine ⟨Nat.lt_of_lt_of_le this.1 ?_, this.2⟩
      unfold enter; split <;> simp
  | @refuse t c q l k hp e y =>
    subst e
    refine H.keep (Keep.refl rfl) hids ?_ ?_ H.tch
    · intro u d l h
      by_cases hut : u = t
      · subst hut; simp [refuse] at h
      · rw [refuse_ne _ _ _ _ hut] at h ⊢
        exact ⟨l, h, rfl, fun o h => .inl h, fun o h => .inl h, fun o h => .inl h⟩
    · intro u d r o h hu
      by_cases hut : u = t
      · subst hut; simp [refuse] at h ⊢; exact H.ops u d r o h hu
      · rw [refuse_ne _ _ _ _ hut] at h ⊢; exact H.ops u d r o h hu
  | @pass t c q l hp e dn s =>
    subst e
    refine H.keep (Keep.refl rfl) hids ?_ ?_ H.tch
    · intro u d l h
      by_cases hut : u = t
      · subst hut
        simp at h
        obtain ⟨rfl, rfl⟩ := h
        refine ⟨_, hp, by simp, ?_, ?_, ?_⟩
        · intro o h; left; simp only [Looks, List.mem_cons] at h ⊢; rcases h with h | h | h <;> simp [h]
        · intro o h
          simp only [Looks, List.mem_cons] at h ⊢
          rcases h with h | h | h
          · rcases h with h | h
            · subst h
              obtain ⟨p, j, hp, hr, ho⟩ := s
              cases hp; exact .inr ⟨j, hr, ho⟩
            · exact .inl (.inl h)
          · rcases h with h | h
            · subst h
              obtain ⟨p, j, hp, hr, ho⟩ := s
              cases hp; exact .inr ⟨j, hr, ho⟩
            · exact .inl (.inr (.inl h))
          · rcases h with h | h
            · subst h; exact s.elim
            · exact .inl (.inr (.inr h))
        · intro o h; left; simp [h]
      · rw [setT_ne _ _ hut] at h ⊢
        exact ⟨l, h, rfl, fun o h => .inl h, fun o h => .inl h, fun o h => .inl h⟩
    · intro u d r o h hu
      by_cases hut : u = t
      · subst hut; simp at h ⊢; exact H.ops _ d r o h hu
      · rw [setT_ne _ _ hut] at h ⊢; exact H.ops u d r o h hu
  | @lazy t c l p hp e hr z =>
    subst e
    have hup : Uses c p := H.use t c _ p hp (by simp [Looks])
    refine H.keep (Keep.refl rfl) hids ?_ ?_ H.tch
    · intro u d l h
      by_cases hut : u = t
      · subst hut
        simp at h
        obtain ⟨rfl, rfl⟩ := h
        refine ⟨_, hp, by simp, ?_, ?_, ?_⟩
        · intro o h
          simp only [Looks, List.mem_cons] at h ⊢
          simp at h
          rcases h with h | h | h | h
          · left; simp [h]
          · left; simp [h]
          · subst h; right; exact ⟨z, hup⟩
          · left; simp [h]
        · intro o h
          left
          simp only [Looks, List.mem_cons] at h ⊢
          simp at h ⊢
          rcases h with h | (h | h) | h <;> simp [h]
        · intro o h
          simp at h ⊢
          rcases h with h | h
          · subst h; exact .inr z
          · exact .inl h
      · rw [setT_ne _ _ hut] at h ⊢
        exact ⟨l, h, rfl, fun o h => .inl h, fun o h => .inl h, fun o h => .inl h⟩
    · intro u d r o h hu
      by_cases hut : u = t
      · subst hut; simp at h ⊢; exact H.ops _ d r o h hu
      · rw [setT_ne _ _ hut] at h ⊢; exact H.ops u d r o h hu
  | @init t c l p k b hp hr hb e =>
    subst e
    have hkeep := H.init_keep hp hr hb
    have hk := H.ids.lt t k hr
    have hup : Uses c p := H.use t c _ p hp (by simp [Looks])
    have hhd : ∀ u d, Head ((w.setO p { rtid := k }).setT t { w.th t with pc := .chk c l }) u d → Head w u d := by
      intro u d ⟨l', h⟩
      by_cases hut : u = t
      · subst hut; simp at h; obtain ⟨rfl, rfl⟩ := h; exact ⟨_, hp⟩
      · rw [setT_ne _ _ hut] at h; exact ⟨l', h⟩
    have hrt : ∀ u, (((w.setO p { rtid := k }).setT t { w.th t with pc := .chk c l }).th u).rt = (w.th u).rt := by
      intro u
      by_cases hut : u = t
      · subst hut; simp
      · rw [setT_ne _ _ hut]; rfl
    have hown : ∀ j o, 1 ≤ j → Owned w j o → Owned ((w.setO p { rtid := k }).setT t { w.th t with pc := .chk c l }) j o :=
      fun j o hj h => hkeep j o (by omega) h
    have hnew : Owned ((w.setO p { rtid := k }).setT t { w.th t with pc := .chk c l }) k p := ⟨{ rtid := k }, by simp, rfl⟩
    refine ⟨hids, ?_, ?_, ?_, ?_, ?_, ?_, ?_⟩
    · intro u d o h hu
      have := H.ex u d o (hhd _ _ h) hu
      show (w.setO p { rtid := k }).obj o ≠ none
      by_cases hop : o = p
      · subst hop; simp
      · rw [setO_ne _ _ hop]; exact this
    · intro u v d e o hne h1 h2 u1 u2 hz
      exact H.excl u v d e o hne (hhd _ _ h1) (hhd _ _ h2) u1 u2 (init_zero hk.1 hb hz).1
    · intro u d l' o h hl
      by_cases hut : u = t
      · subst hut; simp at h; obtain ⟨rfl, rfl⟩ := h
        refine H.use u _ _ o hp ?_
        simp only [Looks, List.mem_cons] at hl ⊢
        rcases hl with h | h | h <;> simp [h]
      · rw [setT_ne _ _ hut] at h; exact H.use u d l' o h hl
    · intro u d l' o j h hi hj
      rw [hrt] at hj
      have hpu : ∃ l2, (w.th u).pc = .chk d l2 ∧ Check.init (some o) ∈ l2 := by
        by_cases hut : u = t
        · subst hut; simp at h; obtain ⟨rfl, rfl⟩ := h; exact ⟨_, hp, by simp [hi]⟩
        · rw [setT_ne _ _ hut] at h; exact ⟨l', h, hi⟩
      obtain ⟨l2, hp2, hi2⟩ := hpu
      by_cases hop : o = p
      · subst hop
        by_cases hut : u = t
        · subst hut; rw [hr] at hj; cases hj; exact .inr hnew
        · have hud : Uses d o := H.use u d l2 o hp2 (by simp [Looks, hi2])
          rcases H.pend u d l2 o j hp2 hi2 hj with hz | ho
          · exact absurd hz (H.excl u t d c o hut ⟨_, hp2⟩ ⟨_, hp⟩ hud hup)
          · exact .inr (hown j o (H.ids.lt u j hj).1 ho)
      · rcases H.pend u d l2 o j hp2 hi2 hj with ⟨b2, h3, h4⟩ | ho
        · exact .inl ⟨b2, by show (w.setO p _).obj o = _; rw [setO_ne _ _ hop]; exact h3, h4⟩
        · exact .inr (hown j o (H.ids.lt u j hj).1 ho)
    · intro u d l' o h hu
      rw [hrt]
      by_cases hut : u = t
      · subst hut; simp at h; obtain ⟨rfl, rfl⟩ := h
        rcases H.seen u _ _ o hp hu with hl | ⟨j, hj, ho⟩
        · simp only [Looks, List.mem_cons] at hl ⊢
          simp at hl
          rcases hl with h | h | h | h
          · exact .inl (.inl h)
          · exact .inl (.inr (.inl h))
          · subst h; exact .inr ⟨k, hr, hnew⟩
          · exact .inl (.inr (.inr h))
        · exact .inr ⟨j, hj, hown j o (H.ids.lt u j hj).1 ho⟩
      · rw [setT_ne _ _ hut] at h
        rcases H.seen u d l' o h hu with hl | ⟨j, hj, ho⟩
        · exact .inl hl
        · exact .inr ⟨j, hj, hown j o (H.ids.lt u j hj).1 ho⟩
    · intro u d r o h hu
      rw [hrt]
      have h' : (d, r) ∈ (w.th u).ops := by
        by_cases hut : u = t
        · subst hut; simpa using h
        · rw [setT_ne _ _ hut] at h; exact h
      obtain ⟨j, hj, ho⟩ := H.ops u d r o h' hu
      exact ⟨j, hj, hown j o (H.ids.lt u j hj).1 ho⟩
    · intro o b' hb'
      have hb2 : (w.setO p { rtid := k }).obj o = some b' := hb'
      by_cases hop : o = p
      · subst hop; simp at hb2; subst hb2; exact ⟨hk.2, by simp⟩
      · rw [setO_ne _ _ hop] at hb2; exact H.tch o b' hb2
  | @touch t i o c r k b hp hop hr hb hU e =>
    subst e
    refine H.keep ⟨?_⟩ hids (fun t c l h => ⟨l, h, rfl, fun o h => .inl h, fun o h => .inl h, fun o h => .inl h⟩) H.ops ?_
    · intro p b' hb'
      by_cases hpo : p = o
      · subst hpo; rw [hb] at hb'; cases hb'; exact ⟨_, setO_same _ _ _, rfl⟩
      · exact ⟨b', by rw [setO_ne _ _ hpo]; exact hb', rfl⟩
    · intro p b' hb'
      by_cases hpo : p = o
      · subst hpo; simp at hb'; subst hb'
        have h1 := H.tch p b hb
        refine ⟨h1.1, ?_⟩
        intro j hj
        simp at hj
        rcases hj with rfl | hj
        · obtain ⟨k', hk', b2, h2, h3⟩ := H.ops t c r p hop hU
          rw [hb] at h2; cases h2
          rw [hr] at hk'; cases hk'; exact h3.symm
        · exact h1.2 j hj
      · rw [setO_ne _ _ hpo] at hb'; exact H.tch p b' hb'
  | @drop t i hp e =>
    subst e
    refine H.keep (Keep.refl rfl) hids ?_ ?_ H.tch
    · intro u d l h
      by_cases hut : u = t
      · subst hut; simp [hp] at h
      · rw [setT_ne _ _ hut] at h ⊢
        exact ⟨l, h, rfl, fun o h => .inl h, fun o h => .inl h, fun o h => .inl h⟩
    · intro u d r o h hu
      by_cases hut : u = t
      · subst hut; simp at h ⊢; exact H.ops _ d r o (List.mem_of_mem_eraseIdx h) hu
      · rw [setT_ne _ _ hut] at h ⊢; exact H.ops u d r o h hu
  | @ret t i r e part c root made hp hop hroot w1 hw1 e2 =>
    have hw1o : Keep w w1 ∧ w1.th = w.th ∧ w1.next = w.next ∧ (∀ o b, w1.obj o = some b → b.rtid < w.next ∧ ∀ k ∈ b.touched, k = b.rtid) := by
      rcases hw1 with rfl | ⟨o, k, _, ho, hk, rfl⟩
      · exact ⟨Keep.refl rfl, rfl, rfl, H.tch⟩
      · refine ⟨Keep.new ho rfl, rfl, rfl, ?_⟩
        intro p b hb
        by_cases hpo : p = o
        · subst hpo; simp at hb; subst hb; exact ⟨(H.ids.lt t k hk).2, by simp⟩
        · rw [setO_ne _ _ hpo] at hb; exact H.tch p b hb
    obtain ⟨K, hth, hnx, htc⟩ := hw1o
    subst e2
    refine H.keep ⟨K.old⟩ hids ?_ ?_ ?_
    · intro u d l h
      by_cases hut : u = t
      · subst hut; simp [hp] at h
      · rw [setT_ne _ _ hut, hth] at h ⊢
        exact ⟨l, h, rfl, fun o h => .inl h, fun o h => .inl h, fun o h => .inl h⟩
    · intro u d r' o h hu
      by_cases hut : u = t
      · subst hut; simp at h ⊢
        cases hrt : root with
        | false => simp; exact H.ops _ d r' o (List.mem_of_mem_eraseIdx h) hu
        | true =>
          rw [hroot hrt] at h hop
          cases i with
          | zero => simp at h
          | succ i => simp at hop
      · rw [setT_ne _ _ hut, hth] at h ⊢; exact H.ops u d r' o h hu
    · intro o b hb
      rw [setT_next, hnx]; exact htc o b hb

theorem reach_iso {w : W} (r : Reach Careful w) : Iso w := by
  induction r with
  | init =>
    refine ⟨reach_ids (.init (ok := any)), ?_, ?_, ?_, ?_, ?_, ?_, ?_⟩ <;> simp [init, Head]
  | step r hok hs ih => exact step_iso ih hok hs

/-- a step changes an object that has an owner only if it is a step of the owner -/
theorem step_owner {w w' : W} {a : Act} (H : Iso w) (hs : step w a = some w') {o : Nat} {b : Obj} (hb : w.obj o = some b) (hz : b.rtid ≠ 0) :
    (∃ b', w'.obj o = some b' ∧ b'.rtid = b.rtid) ∧ ((∀ t, (w.th t).rt ≠ some b.rtid) → w'.obj o = some b) := by
  cases step_kind hs with
  | @zero p ho e =>
    subst e
    have : o ≠ p := by intro h; rw [h, ho] at hb; cases hb
    rw [setO_ne _ _ this]; exact ⟨⟨b, hb, rfl⟩, fun _ => hb⟩
  | call hp e => subst e; exact ⟨⟨b, hb, rfl⟩, fun _ => hb⟩
  | enter hp e => subst e; rw [enter_obj]; exact ⟨⟨b, hb, rfl⟩, fun _ => hb⟩
  | refuse hp e => subst e; exact ⟨⟨b, hb, rfl⟩, fun _ => hb⟩
  | pass hp e => subst e; exact ⟨⟨b, hb, rfl⟩, fun _ => hb⟩
  | lazy hp e => subst e; exact ⟨⟨b, hb, rfl⟩, fun _ => hb⟩
  | @init t c l p k b' hp hr hb' e =>
    subst e
    rw [setT_obj]
    by_cases hop : o = p
    · subst hop
      rcases H.pend t c _ o k hp (by simp) hr with ⟨b2, h2, h3⟩ | ⟨b2, h2, h3⟩
      · rw [hb] at h2; cases h2; exact absurd h3 hz
      · rw [hb] at h2; cases h2
        exact ⟨⟨_, setO_same _ _ _, h3.symm⟩, fun h => absurd (by rw [h3]; exact hr) (h t)⟩
    · rw [setO_ne _ _ hop]; exact ⟨⟨b, hb, rfl⟩, fun _ => hb⟩
  | @touch t i p c r k b' hp hop hr hb' hU e =>
    subst e
    by_cases hpo : o = p
    · subst hpo
      rw [hb] at hb'; cases hb'
      refine ⟨⟨_, setO_same _ _ _, rfl⟩, ?_⟩
      intro h
      obtain ⟨k', hk', b2, h2, h3⟩ := H.ops t c r o hop hU
      rw [hb] at h2; cases h2
      rw [← h3] at hk'
      exact absurd hk' (h t)
    · rw [setO_ne _ _ hpo]; exact ⟨⟨b, hb, rfl⟩, fun _ => hb⟩
  | drop hp e => subst e; exact ⟨⟨b, hb, rfl⟩, fun _ => hb⟩
  | ret hp hop hroot w1 hw1 e =>
    subst e
    rw [setT_obj]
    rcases hw1 with rfl | ⟨p, k, _, ho, hk, rfl⟩
    · exact ⟨⟨b, hb, rfl⟩, fun _ => hb⟩
    · have : o ≠ p := by intro h; rw [h, ho] at hb; cases hb
      rw [setO_ne _ _ this]; exact ⟨⟨b, hb, rfl⟩, fun _ => hb⟩

/-- a runtime that has ended does not come back -/
theorem step_gone {w w' : W} {a : Act} (_H : Ids w) (hs : step w a = some w') {k : Nat} (hk : k < w.next) (h : ∀ t, (w.th t).rt ≠ some k) :
    k < w'.next ∧ ∀ t, (w'.th t).rt ≠ some k := by
  have key : ∀ {t : Nat} {x : Thread} {w1 : W}, w1.next = w.next → w1.th = w.th → (x.rt = some k → (w.th t).rt = some k) → k < (w1.setT t x).next ∧ ∀ u, ((w1.setT t x).th u).rt ≠ some k := by
    intro t x w1 hn hth hx
    refine ⟨by simp [hn, hk], ?_⟩
    intro u hu
    by_cases hut : u = t
    · subst hut; simp at hu; exact h _ (hx hu)
    · rw [setT_ne _ _ hut, hth] at hu; exact h u hu
  cases step_kind hs with
  | zero ho e => subst e; exact ⟨hk, h⟩
  | call hp e => subst e; exact key rfl rfl (fun h => h)
  | @enter t c hp e =>
    subst e
    unfold enter
    split
    · refine ⟨by show k < w.next + 1; omega, ?_⟩
      intro u hu
      by_cases hut : u = t
      · subst hut; simp [W.setT] at hu; omega
      · simp [W.setT, hut] at hu; exact h u hu
    · exact key rfl rfl (fun h => h)
  | refuse hp e y => subst e; exact key rfl rfl (fun h => h)
  | pass hp e => subst e; exact key rfl rfl (fun h => h)
  | lazy hp e => subst e; exact key rfl rfl (fun h => h)
  | init hp r hb e => subst e; exact key rfl rfl (fun h => h)
  | touch hp hop r hb hU e => subst e; exact ⟨hk, h⟩
  | drop hp e => subst e; exact key rfl rfl (fun h => h)
  | ret hp hop hroot w1 hw1 e =>
    subst e
    have : ∀ (root : Bool) (x : Option Nat), (if root then none else x) = some k → x = some k := by intro root x h; cases root <;> simp_all
    rcases hw1 with rfl | ⟨o, k, _, _, _, rfl⟩
    · exact key rfl rfl (this _ _)
    · exact key rfl rfl (this _ _)

end Neco.Obj
