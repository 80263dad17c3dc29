import Verif.Proof.Net3

/-! # Lemmas: what the resolver is asked for -/

namespace Neco.Net
open Neco.Err Neco.Io

theorem runH_query (s : S) (h : Hdl) : (runH s h).query = s.query := by
  cases h <;> simp only [runH, close, free, S.err] <;> (repeat' split) <;> rfl
theorem pop_query (s : S) : (pop s).query = s.query := by
  unfold pop; split
  · rw [runH_query]
  · rfl
theorem unwind_query : ∀ (l : List Hdl) (s : S), (unwind s l).query = s.query
  | [], _ => rfl
  | h :: l, s => by unfold unwind; rw [unwind_query l, runH_query]
theorem finish_query (g : Res → W → Res × W) (r : Res) (s : S) : (finish g r s).2.query = s.query := by
  unfold finish; dsimp only; split
  · rw [unwind_query]
  · rfl

theorem lookup_query {addr : List UInt8} {vers : Nat} {x : Look} {s u : S} {r : Lk} (h : lookup addr vers x s = some (r, u)) :
    (u.query = s.query ∧ (r = .err INVAL ∨ r = .err NOMEM)) ∨
    ∃ pre port host, addr = pre ++ 58 :: port ∧ 58 ∉ port ∧ Addr.Stripped pre host ∧ u.query = some (vhost host vers, port, vers) := by
  unfold lookup at h
  rcases Addr.parse_cases addr x.host.isSome with ⟨_, e⟩ | ⟨pre, port, host, e1, e2, e3, e⟩
  · rw [e] at h
    cases h
    exact .inl ⟨rfl, .inl rfl⟩
  · rw [e] at h
    cases hh : x.host with
    | none =>
      simp only [hh, Option.isSome_none, Bool.false_eq_true, ↓reduceIte, Option.some.injEq, Prod.mk.injEq] at h
      obtain ⟨rfl, rfl⟩ := h
      exact .inl ⟨rfl, .inr rfl⟩
    | some m =>
      refine .inr ⟨pre, port, host, e1, e2, e3, ?_⟩
      simp only [hh, Option.isSome_some, ↓reduceIte] at h
      split at h
      · cases h
      split at h
      · cases h; rfl
      · split at h
        · cases h
        · cases h; rw [pop_query]; rfl
      · split at h
        · cases h
        · split at h <;> (cases h; rw [pop_query]; rfl)

theorem dialTcp_query {addr : List UInt8} {vers : Nat} {dl : Int} {x : Dial} {w : W} {u : S} {r : Res} (h : dialTcp addr vers dl x { w := w } = some (r, u)) :
    (u.query = none ∧ (r = .ret INVAL ∨ r = .ret NOMEM)) ∨
    ∃ pre port host, addr = pre ++ 58 :: port ∧ 58 ∉ port ∧ Addr.Stripped pre host ∧ u.query = some (vhost host vers, port, vers) := by
  unfold dialTcp at h
  split at h
  · cases h
  · rename_i hl
    cases h
    rcases lookup_query hl with ⟨_, g | g⟩ | g
    · cases g
    · cases g
    · exact .inr g
  · rename_i hl
    cases h
    rcases lookup_query hl with ⟨g0, g | g⟩ | g
    · cases g; exact .inl ⟨g0, .inl rfl⟩
    · cases g; exact .inl ⟨g0, .inr rfl⟩
    · exact .inr g
  · rename_i hl
    split at h
    · cases h
    · rename_i hd
      cases h
      rcases lookup_query hl with ⟨_, g | g⟩ | ⟨pre, port, host, g1, g2, g3, g4⟩
      · cases g
      · cases g
      · refine .inr ⟨pre, port, host, g1, g2, g3, ?_⟩
        rcases dialLoop_spec hd with ⟨_, e⟩ | ⟨_, e⟩ <;> (rw [e]; exact g4)
    · rename_i hd
      cases h
      rcases lookup_query hl with ⟨_, g | g⟩ | ⟨pre, port, host, g1, g2, g3, g4⟩
      · cases g
      · cases g
      · refine .inr ⟨pre, port, host, g1, g2, g3, ?_⟩
        rw [pop_query]
        rcases dialLoop_spec hd with ⟨_, e⟩ | ⟨_, e⟩ <;> (rw [e]; exact g4)

theorem listenTcp_query {addr : List UInt8} {vers : Nat} {x : Serve} {w : W} {u : S} {r : Res} (h : listenTcp addr vers x { w := w } = some (r, u)) :
    (u.query = none ∧ (r = .ret INVAL ∨ r = .ret NOMEM)) ∨
    ∃ pre port host, addr = pre ++ 58 :: port ∧ 58 ∉ port ∧ Addr.Stripped pre host ∧ u.query = some (vhost host vers, port, vers) := by
  have hfree : ∀ (s : S) m, (free s m).query = s.query := fun s m => runH_query s (.free m)
  have hclose : ∀ (s : S) fd, (close s fd).query = s.query := fun s m => runH_query s (.close m)
  have hbind : ∀ (s : S) fd a e, (bindFd s fd a e).2.query = s.query := by intro s fd a e; unfold bindFd; split <;> rfl
  have hlis : ∀ (s : S) fd e, (listenFd s fd e).2.query = s.query := by intro s fd e; unfold listenFd; (repeat' split) <;> rfl
  have hnb : ∀ (s : S) fd e, (setNonblock s fd e).2.query = s.query := by intro s fd e; unfold setNonblock; split <;> rfl
  unfold listenTcp at h
  split at h
  · cases h
  · rename_i hl
    cases h
    rcases lookup_query hl with ⟨_, g | g⟩ | g
    · cases g
    · cases g
    · exact .inr g
  · rename_i hl
    cases h
    rcases lookup_query hl with ⟨g0, g | g⟩ | g
    · cases g; exact .inl ⟨g0, .inl rfl⟩
    · cases g; exact .inl ⟨g0, .inr rfl⟩
    · exact .inr g
  · rename_i hl
    rcases lookup_query hl with ⟨_, g | g⟩ | ⟨pre, port, host, g1, g2, g3, g4⟩
    · cases g
    · cases g
    refine .inr ⟨pre, port, host, g1, g2, g3, ?_⟩
    rw [← g4]
    split at h
    · cases h; rw [hfree]; rfl
    · rw [Option.map_eq_some_iff] at h
      obtain ⟨s1, h1, h2⟩ := h
      unfold openFd at h1
      split at h1
      · cases h1
      simp only [Option.some.injEq] at h1
      subst h1
      dsimp only at h2
      (repeat' split at h2) <;> simp only [Prod.mk.injEq] at h2 <;> obtain ⟨_, rfl⟩ := h2 <;> simp only [hclose, hnb, hlis, hfree, hbind] <;> rfl

end Neco.Net
