import Verif.Model.Net
import Verif.Props.Addr

/-! # Lemmas about connecting and listening -/

namespace Neco.Net
open Neco.Err Neco.Io

/-- apart from the coroutine, the same -/
structure Same (s t : S) : Prop where
  fds : t.fds = s.fds
  mem : t.mem = s.mem
  hs : t.hs = s.hs
  fault : t.fault = s.fault
theorem Same.refl {s : S} : Same s s := ⟨rfl, rfl, rfl, rfl⟩
theorem Same.trans {s t u : S} (h : Same s t) (g : Same t u) : Same s u := ⟨g.fds.trans h.fds, g.mem.trans h.mem, g.hs.trans h.hs, g.fault.trans h.fault⟩

theorem nokey {s : S} {fd : Nat} (h : getFd s fd = none) : ∀ p ∈ s.fds, p.1 ≠ fd := by
  intro p hp e
  unfold getFd at h
  simp only [Option.map_eq_none_iff, List.find?_eq_none] at h
  exact h p hp (by simp [e])

theorem openFd_some {s t : S} {fd : Nat} {k : Sock} (h : openFd s fd k = some t) : getFd s fd = none ∧ t = { s with fds := (fd, k) :: s.fds } := by
  unfold openFd at h
  split at h
  · cases h
  · rename_i hn
    cases h
    exact ⟨by cases e : getFd s fd <;> simp_all, rfl⟩

/-- the state has descriptor `fd` on top of the descriptors `l` -/
structure Top (s : S) (fd : Nat) (k : Sock) (l : List (Nat × Sock)) : Prop where
  fds : s.fds = (fd, k) :: l
  nk : ∀ p ∈ l, p.1 ≠ fd

theorem Top.get {s : S} {fd : Nat} {k : Sock} {l} (h : Top s fd k l) : getFd s fd = some k := by
  unfold getFd; rw [h.fds]; simp
theorem Top.set {s : S} {fd : Nat} {k k' : Sock} {l} (h : Top s fd k l) : setFd s fd k' = { s with fds := (fd, k') :: l } := by
  unfold setFd
  rw [h.fds, List.map_cons]
  have e : l.map (fun p => if p.1 = fd then (fd, k') else p) = l := by
    conv => rhs; rw [← List.map_id l]
    refine List.map_congr_left (fun p hp => ?_)
    rw [if_neg (h.nk p hp)]; rfl
  rw [e]
  simp
theorem Top.close {s : S} {fd : Nat} {k : Sock} {l} (h : Top s fd k l) : close s fd = { s with fds := l } := by
  unfold Net.close
  rw [if_neg (by omega), Int.toNat_natCast, h.get]
  simp only [Option.isSome_some, ↓reduceIte, h.fds]
  congr 1
  rw [List.filter_cons_of_neg (by simp)]
  exact List.filter_eq_self.mpr (fun p hp => by simpa using h.nk p hp)

/-- the states in which `connect` to `a` finds its socket -/
def Mine (a : Addr) : St → Prop
  | .fresh => True
  | .bound _ => True
  | .failed _ => True
  | .connecting b => b = a
  | .connected b => b = a
  | _ => False

theorem bg_mine {a : Addr} {st st' : St} {b : Bg} (h : Mine a st) (e : bg st b = some st') : Mine a st' := by
  unfold bg at e
  split at e
  · cases e; exact h
  · cases e; exact h
  · split at e
    · cases e; trivial
    · cases e
  · cases e

theorem kconnect_mine {a : Addr} {st st' : St} {r : Cr} (h : Mine a st) (e : kconnect a st r = some st') :
    Mine a st' ∧ (r = .ok → st' = .connected a) ∧ (r = .isconn → st' = .connected a) := by
  unfold kconnect at e
  split at e <;> (try split at e) <;> (try cases e) <;> (try simp_all [Mine]) <;> (try split) <;> simp_all [Mine]

theorem connectDl_spec {a : Addr} {dl : Int} : ∀ {ts : List (Turn SysC)} {inprog : Bool} {k k' : Sock} {w w' : W} {r : Res},
    connectDl a dl inprog ts k w = some (r, k', w') → Mine a k.st → k'.nonblock = k.nonblock ∧ Mine a k'.st ∧ ∀ n, r = .ret n → (n = 0 ∧ k'.st = .connected a) ∨ n = -1
  | [], _, _, _, _, _, _, h, _ => by simp [connectDl] at h
  | t :: ts, inprog, k, k', w, w', r, h, hm => by
    unfold connectDl at h
    dsimp only at h
    split at h
    · cases h; exact ⟨rfl, hm, by simp⟩
    split at h
    · cases h
    rename_i st hst
    rw [Option.bind_eq_some_iff] at hst
    obtain ⟨st1, h1, h2⟩ := hst
    obtain ⟨m1, m2, m3⟩ := kconnect_mine (bg_mine hm h1) h2
    split at h
    · rename_i hr; cases h; exact ⟨rfl, m1, fun n hn => .inl (by cases hn; exact ⟨rfl, m2 hr⟩)⟩
    · rename_i hr; cases h
      refine ⟨rfl, m1, fun n hn => ?_⟩
      cases hn
      split
      · exact .inl ⟨rfl, m3 hr⟩
      · exact .inr rfl
    · cases h; exact ⟨rfl, m1, by simp⟩
    · split at h
      · cases h; exact ⟨rfl, m1, by simp⟩
      · exact connectDl_spec (k := { k with st := st }) h m1
    · exact connectDl_spec (k := { k with st := st }) h m1
    · exact connectDl_spec (k := { k with st := st }) h m1
    · cases h; exact ⟨rfl, m1, by simp⟩
    · cases h; exact ⟨rfl, m1, by simp⟩

theorem guardA_ret {r : Res} {w : W} {n : Int} (h : (guardA r w).1 = .ret n) : r = .ret n := by
  cases r with
  | exit => cases h
  | ret m =>
    unfold guardA at h
    dsimp only at h
    split at h
    · cases h
    · exact h

theorem connect_spec {a : Addr} {dl : Int} {ts : List (Turn SysC)} {k k' : Sock} {w w' : W} {r : Res}
    (h : connect a dl ts k w = some (r, k', w')) (hm : Mine a k.st) : k'.nonblock = k.nonblock ∧ Mine a k'.st ∧ ∀ n, r = .ret n → (n = 0 ∧ k'.st = .connected a) ∨ n = -1 := by
  unfold connect at h
  rw [Option.map_eq_some_iff] at h
  obtain ⟨⟨r0, k0, w0⟩, h1, h2⟩ := h
  simp only [Prod.mk.injEq] at h2
  obtain ⟨h3, rfl, h4⟩ := h2
  obtain ⟨g1, g2, g3⟩ := connectDl_spec h1 hm
  refine ⟨g1, g2, fun n hn => ?_⟩
  subst h3
  exact g3 n (guardA_ret hn)

/-- how an attempt to connect can end -/
inductive Conn (a : Addr) (s : S) : Res → S → Prop
  | ok {t : S} (fd : Nat) (nk : ∀ p ∈ s.fds, p.1 ≠ fd) (hf : t.fds = (fd, ⟨true, .connected a⟩) :: s.fds) (hm : t.mem = s.mem) (hh : t.hs = s.hs) (hq : t.fault = s.fault) : Conn a s (.ret fd) t
  | fail {t : S} (h : Same s t) : Conn a s (.ret (-1)) t
  | exit {t : S} (fd : Nat) (k : Sock) (nk : ∀ p ∈ s.fds, p.1 ≠ fd) (hf : t.fds = (fd, k) :: s.fds) (hm : t.mem = s.mem) (hh : t.hs = .close fd :: s.hs) (hq : t.fault = s.fault) : Conn a s .exit t

theorem pop_cons {s : S} {h : Hdl} {l : List Hdl} (e : s.hs = h :: l) : pop s = runH { s with hs := l } h := by unfold pop; rw [e]

theorem dialConnect_spec {a : Addr} {dl : Int} {t : Att} {s u : S} {r : Res} (h : dialConnect a dl t s = some (r, u)) :
    Conn a s r u ∧ u.tried = s.tried ++ [a] ∧ u.query = s.query := by
  unfold dialConnect at h
  dsimp only at h
  split at h
  · cases h; exact ⟨.fail ⟨rfl, rfl, rfl, rfl⟩, rfl, rfl⟩
  rename_i fd _
  rw [Option.bind_eq_some_iff] at h
  obtain ⟨s1, h1, h2⟩ := h
  obtain ⟨hn, rfl⟩ := openFd_some h1
  have nk : ∀ p ∈ s.fds, p.1 ≠ fd := nokey hn
  have hT : Top { s with fds := (fd, {}) :: s.fds, tried := s.tried ++ [a] } fd {} s.fds := ⟨rfl, nk⟩
  unfold setNonblock at h2
  dsimp only at h2
  cases hnb : t.nb with
  | some e =>
    simp only [hnb] at h2
    cases h2
    have hT' : Top (S.err { s with fds := (fd, {}) :: s.fds, tried := s.tried ++ [a] } e) fd {} s.fds := ⟨rfl, nk⟩
    rw [hT'.close]
    exact ⟨.fail ⟨rfl, rfl, rfl, rfl⟩, rfl, rfl⟩
  | none =>
    simp only [hnb, hT.get, hT.set] at h2
    have hT2 : Top (push { s with fds := (fd, ⟨true, .fresh⟩) :: s.fds, tried := s.tried ++ [a] } (.close fd)) fd ⟨true, .fresh⟩ s.fds := ⟨rfl, nk⟩
    simp only [hT2.get] at h2
    split at h2
    · cases h2
    · rename_i k w hc
      cases h2
      simp only [hT2.set]
      exact ⟨.exit fd k nk rfl rfl rfl rfl, rfl, rfl⟩
    · rename_i n k w hc
      obtain ⟨g1, g2, g3⟩ := connect_spec hc trivial
      simp only [hT2.set] at h2
      rcases g3 n rfl with ⟨rfl, g4⟩ | rfl
      · simp only [↓reduceIte] at h2
        cases h2
        rw [pop_cons rfl]
        refine ⟨.ok fd nk ?_ rfl rfl rfl, rfl, rfl⟩
        show (fd, k) :: s.fds = _
        rw [← g4]
        cases k; simp_all
      · rw [if_neg (by omega)] at h2
        cases h2
        rw [pop_cons rfl]
        have hT3 : Top { push { s with fds := (fd, k) :: s.fds, tried := s.tried ++ [a] } (.close fd) with w := w, hs := s.hs } fd k s.fds := ⟨rfl, nk⟩
        have := hT3.close
        refine ⟨?_, ?_⟩
        · show Conn a s (.ret (-1)) (close _ _)
          erw [this]; exact .fail ⟨rfl, rfl, rfl, rfl⟩
        · show (close _ _).tried = _ ∧ (close _ _).query = _
          erw [this]; exact ⟨rfl, rfl⟩

theorem dialLoop_spec {dl : Int} : ∀ {l : List Addr} {ts : List Att} {s u : S} {r : Res}, dialLoop dl l ts s = some (r, u) →
    (∃ pre a post, l = pre ++ a :: post ∧ u.tried = s.tried ++ (pre ++ [a]) ∧ Conn a s r u ∧ r ≠ .ret (-1)) ∧ u.query = s.query ∨
    (r = .ret (-1) ∧ Same s u ∧ u.tried = s.tried ++ l) ∧ u.query = s.query
  | [], _, s, u, r, h => by
    simp only [dialLoop, Option.some.injEq, Prod.mk.injEq] at h
    obtain ⟨rfl, rfl⟩ := h
    exact .inr ⟨⟨rfl, .refl, by simp⟩, rfl⟩
  | _ :: _, [], _, _, _, h => by simp [dialLoop] at h
  | a :: l, t :: ts, s, u, r, h => by
    unfold dialLoop at h
    split at h
    · cases h
    · rename_i s1 h1
      cases h
      obtain ⟨g1, g2, g3⟩ := dialConnect_spec h1
      exact .inl ⟨⟨[], a, l, rfl, g2, g1, by simp⟩, g3⟩
    · rename_i fd s1 h1
      obtain ⟨g1, g2, g3⟩ := dialConnect_spec h1
      split at h
      · rename_i hne
        cases h
        exact .inl ⟨⟨[], a, l, rfl, g2, g1, by simp [hne]⟩, g3⟩
      · rename_i he
        have he : fd = -1 := by omega
        subst he
        have hs : Same s s1 := by
          cases g1 with
          | fail h => exact h
        rcases dialLoop_spec h with ⟨⟨pre, b, post, e1, e2, e3, e4⟩, e5⟩ | ⟨⟨e1, e2, e3⟩, e4⟩
        · refine .inl ⟨⟨a :: pre, b, post, by rw [e1]; rfl, by rw [e2, g2]; simp, ?_, e4⟩, e5.trans g3⟩
          cases e3 with
          | ok fd nk hf hm hh hq => exact .ok fd (by rw [← hs.fds]; exact nk) (by rw [hf, hs.fds]) (hm.trans hs.mem) (hh.trans hs.hs) (hq.trans hs.fault)
          | fail h => exact .fail (hs.trans h)
          | exit fd k nk hf hm hh hq => exact .exit fd k (by rw [← hs.fds]; exact nk) (by rw [hf, hs.fds]) (hm.trans hs.mem) (by rw [hh, hs.hs]) (hq.trans hs.fault)
        · exact .inr ⟨⟨e1, hs.trans e2, by rw [e3, g2]; simp⟩, e4.trans g3⟩

/-- how a lookup can end -/
inductive Looked (addr : List UInt8) (x : Look) (s : S) : Lk → S → Prop
  | ok {t : S} (m : Nat) (a : Addr) (l : List Addr) (hx : x.res = .ok m (a :: l)) (nm : m ∉ s.mem) (hf : t.fds = s.fds) (hm : t.mem = m :: s.mem) (hh : t.hs = s.hs) (hq : t.fault = s.fault) :
      Looked addr x s (.ok m a l) t
  | err {t : S} (c : Int) (hc : c < 0) (h : Same s t) : Looked addr x s (.err c) t
  | exit {t : S} (m : Nat) (nm : m ∉ s.mem) (hf : t.fds = s.fds) (hm : t.mem = m :: s.mem) (hh : t.hs = .free m :: s.hs) (hq : t.fault = s.fault) : Looked addr x s .exit t

theorem fromSys_neg (e : Int) : fromSys e < 0 := by
  unfold fromSys; (repeat' split) <;> decide
theorem fromGai_neg (c e : Int) : fromGai c e < 0 := by
  unfold fromGai
  split
  · decide
  · split
    · exact fromSys_neg e
    · decide

theorem free_cons {s : S} {m : Nat} {l l' : List Nat} (e : s.mem = l ++ m :: l') (h : m ∉ l ∧ m ∉ l') : free s m = { s with mem := l ++ l' } := by
  unfold free
  rw [if_pos (by rw [e]; simp), e]
  congr 1
  rw [List.filter_append, List.filter_cons_of_neg (by simp), List.filter_eq_self.mpr, List.filter_eq_self.mpr]
  · intro x hx; simp; rintro rfl; exact h.2 hx
  · intro x hx; simp; rintro rfl; exact h.1 hx

theorem lookup_spec {addr : List UInt8} {vers : Nat} {x : Look} {s u : S} {r : Lk} (h : lookup addr vers x s = some (r, u)) :
    Looked addr x s r u ∧ u.tried = s.tried := by
  unfold lookup at h
  rcases Addr.parse_cases addr x.host.isSome with ⟨_, e⟩ | ⟨pre, port, host, _, _, _, e⟩
  · rw [e] at h
    simp only [Option.some.injEq, Prod.mk.injEq] at h
    obtain ⟨rfl, rfl⟩ := h
    exact ⟨.err _ (by decide) .refl, rfl⟩
  · rw [e] at h
    cases hh : x.host with
    | none =>
      simp only [hh, Option.isSome_none, Bool.false_eq_true, ↓reduceIte, Option.some.injEq, Prod.mk.injEq] at h
      obtain ⟨rfl, rfl⟩ := h
      exact ⟨.err _ (by decide) .refl, rfl⟩
    | some m =>
      simp only [hh, Option.isSome_some, ↓reduceIte] at h
      split at h
      · cases h
      rename_i hm
      split at h
      · cases h
        exact ⟨.exit m hm rfl rfl rfl rfl, rfl⟩
      · split at h
        · cases h
        · cases h
          rw [pop_cons rfl]
          unfold runH
          simp only
          rw [free_cons (l := []) (l' := s.mem) rfl ⟨by simp, hm⟩]
          exact ⟨.err _ (fromGai_neg _ _) ⟨rfl, rfl, rfl, rfl⟩, rfl⟩
      · rename_i m' l hres
        split at h
        · cases h
        rename_i hm'
        have hm' : m' ∉ m :: s.mem := hm'
        simp only [List.mem_cons, not_or] at hm'
        split at h
        · cases h
          rw [pop_cons rfl]
          unfold runH
          simp only
          rw [free_cons (l := []) (l' := s.mem) rfl ⟨by simp, hm⟩]
          exact ⟨.err _ (by decide) ⟨rfl, rfl, rfl, rfl⟩, rfl⟩
        · rename_i a l
          cases h
          rw [pop_cons rfl]
          unfold runH
          simp only
          rw [free_cons (l := [m']) (l' := s.mem) rfl ⟨by simp; exact fun e => hm'.1 e.symm, hm⟩]
          exact ⟨.ok m' a l hres hm'.2 rfl rfl rfl rfl, rfl⟩

end Neco.Net
