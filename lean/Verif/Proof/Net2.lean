import Verif.Proof.Net
import Verif.Spec.Net

/-! # Lemmas about dialing and serving -/

namespace Neco.Net
open Neco.Err Neco.Io

theorem unwind_close {s : S} {fd : Nat} {k : Sock} {l : List (Nat × Sock)} (hT : Top s fd k l) (hs : List Hdl) : unwind s (.close fd :: hs) = unwind { s with fds := l } hs := by
  show unwind (close s fd) hs = _
  rw [hT.close]
theorem unwind_free {s : S} {m : Nat} {l l' : List Nat} (e : s.mem = l ++ m :: l') (h : m ∉ l ∧ m ∉ l') (hs : List Hdl) : unwind s (.free m :: hs) = unwind { s with mem := l ++ l' } hs := by
  show unwind (free s m) hs = _
  rw [free_cons e h]

/-- what a dial can leave before its handlers run -/
inductive Dialed (l : List Addr) (r : Res) (t : S) : Prop
  | ok (n : Nat) (b : Addr) (post : List Addr) (hr : r = .ret n) (hl : l = t.tried ++ post) (hb : t.tried.getLast? = some b) (hf : t.fds = [(n, ⟨true, .connected b⟩)]) (hm : t.mem = []) (hh : t.hs = []) (hq : t.fault = false)
  | fail (n : Int) (hn : n < 0) (hr : r = .ret n) (hl : t.tried = [] ∨ t.tried = l) (hf : t.fds = []) (hm : t.mem = []) (hh : t.hs = []) (hq : t.fault = false)
  | exit (hr : r = .exit) (hu : ∀ u : S, u.fds = t.fds → u.mem = t.mem → u.fault = t.fault → Nothing (unwind u t.hs))

theorem dialUnix_spec {addr : List UInt8} {dl : Int} {x : Dial} {w : W} {t : S} {r : Res} (h : dialUnix addr dl x { w := w } = some (r, t)) : Dialed [.unix addr] r t := by
  unfold dialUnix at h
  split at h
  · cases h; exact .fail _ (by decide) rfl (.inl rfl) rfl rfl rfl rfl
  rename_i hl
  have hp : addr.take PATHMAX = addr := List.take_of_length_le (by omega)
  rw [hp] at h
  split at h
  · cases h
  split at h
  · cases h
  · rename_i s1 h1
    cases h
    obtain ⟨g1, g2, _⟩ := dialConnect_spec h1
    generalize hr : Res.exit = r at g1
    cases g1 with
    | ok | fail => cases hr
    | exit fd k nk hf hm hh hq =>
      refine .exit rfl (fun u u1 u2 u3 => ?_)
      rw [hh]
      rw [unwind_close (l := []) ⟨u1.trans hf, by simp⟩]
      exact ⟨rfl, u2.trans hm, u3.trans hq⟩
  · rename_i n s1 h1
    cases h
    obtain ⟨g1, g2, _⟩ := dialConnect_spec h1
    generalize hr : Res.ret n = r at g1
    cases g1 with
    | ok fd nk hf hm hh hq =>
      cases hr
      rw [if_neg (by omega)]
      exact .ok fd (.unix addr) [] rfl (by simp [g2]) (by simp [g2]) hf hm hh hq
    | fail hs =>
      cases hr
      rw [if_pos rfl]
      exact .fail _ (fromSys_neg _) rfl (.inr g2) hs.fds hs.mem hs.hs hs.fault
    | exit => cases hr

theorem dialTcp_spec {addr : List UInt8} {v : Nat} {dl : Int} {x : Dial} {w : W} {t : S} {r : Res} (h : dialTcp addr v dl x { w := w } = some (r, t)) :
    Dialed (match x.look.res with | .ok _ l => l | _ => []) r t := by
  unfold dialTcp at h
  split at h
  · cases h
  · rename_i s1 h1
    cases h
    obtain ⟨g1, g2⟩ := lookup_spec h1
    cases g1 with
    | exit m nm hf hm hh hq =>
      refine .exit rfl (fun u u1 u2 u3 => ?_)
      rw [hh, unwind_free (l := []) (l' := []) (u2.trans hm) (by simp)]
      exact ⟨u1.trans hf, rfl, u3.trans hq⟩
  · rename_i c s1 h1
    cases h
    obtain ⟨g1, g2⟩ := lookup_spec h1
    cases g1 with
    | err _ hc hs => exact .fail c hc rfl (.inl g2) hs.fds hs.mem hs.hs hs.fault
  · rename_i m a l s1 h1
    obtain ⟨g1, g2⟩ := lookup_spec h1
    cases g1 with
    | ok _ _ _ hx nm hf hm hh hq =>
      rw [hx]
      dsimp only
      have g2 : s1.tried = [] := g2
      split at h
      · cases h
      · rename_i s2 h2
        cases h
        rcases dialLoop_spec h2 with ⟨⟨pre, b, post, e1, e2, e3, e4⟩, _⟩ | ⟨⟨e1, _⟩, _⟩
        · generalize hr : Res.exit = r at e3
          cases e3 with
          | ok | fail => cases hr
          | exit fd k nk hf' hm' hh' hq' =>
            refine .exit rfl (fun u u1 u2 u3 => ?_)
            have hf1 : (push s1 (.free m)).fds = [] := hf
            have hh1 : (push s1 (.free m)).hs = [.free m] := by show Hdl.free m :: s1.hs = _; rw [hh]
            rw [hh', hh1]
            rw [hf1] at hf'
            rw [unwind_close (l := []) ⟨u1.trans hf', by simp⟩, unwind_free (l := []) (l' := []) (by show u.mem = _; rw [u2, hm']; exact hm) (by simp)]
            exact ⟨rfl, rfl, u3.trans (hq'.trans hq)⟩
        · cases e1
      · rename_i n s2 h2
        cases h
        rcases dialLoop_spec h2 with ⟨⟨pre, b, post, e1, e2, e3, e4⟩, _⟩ | ⟨⟨e1, e2, e3⟩, _⟩
        · generalize hr : Res.ret n = r at e3
          cases e3 with
          | ok fd nk hf' hm' hh' hq' =>
            cases hr
            rw [if_neg (by omega)]
            have hh1 : s2.hs = [.free m] := by rw [hh']; show Hdl.free m :: s1.hs = _; rw [hh]
            have hm1 : s2.mem = [m] := by rw [hm']; exact hm
            have hf1 : s2.fds = [(fd, ⟨true, .connected b⟩)] := by rw [hf']; show (_ :: s1.fds) = _; rw [hf]
            have ht : s2.tried = pre ++ [b] := by rw [e2]; show s1.tried ++ _ = _; rw [g2]; rfl
            rw [pop_cons hh1]
            unfold runH
            simp only
            rw [free_cons (s := { s2 with hs := [] }) (l := []) (l' := []) hm1 (by simp)]
            exact .ok fd b post rfl (by show a :: l = s2.tried ++ post; rw [ht, e1]; simp) (by show s2.tried.getLast? = _; rw [ht]; simp) hf1 rfl rfl (hq'.trans hq)
          | fail => cases hr; exact absurd rfl e4
          | exit => cases hr
        · cases e1
          rw [if_pos rfl]
          have hh1 : s2.hs = [.free m] := by rw [e2.hs]; show Hdl.free m :: s1.hs = _; rw [hh]
          have hm1 : s2.mem = [m] := by rw [e2.mem]; exact hm
          rw [pop_cons hh1]
          unfold runH
          simp only
          rw [free_cons (s := { s2 with hs := [] }) (l := []) (l' := []) hm1 (by simp)]
          exact .fail _ (fromSys_neg _) rfl (.inr (by show s2.tried = _; rw [e3]; show s1.tried ++ _ = _; rw [g2]; rfl)) (e2.fds.trans hf) rfl rfl (e2.fault.trans hq)

/-- what a serve can leave -/
inductive Served (a : Addr → Prop) (r : Res) (t : S) : Prop
  | ok (n : Nat) (b : Addr) (hb : a b) (hr : r = .ret n) (hf : t.fds = [(n, ⟨true, .listening b⟩)]) (hm : t.mem = []) (hh : t.hs = []) (hq : t.fault = false)
  | fail (n : Int) (hn : n < 0) (hr : r = .ret n) (hf : t.fds = []) (hm : t.mem = []) (hh : t.hs = []) (hq : t.fault = false)
  | exit (hr : r = .exit) (hu : ∀ u : S, u.fds = t.fds → u.mem = t.mem → u.fault = t.fault → Nothing (unwind u t.hs))

theorem top_close_fds {s : S} {fd : Nat} {k : Sock} {l : List (Nat × Sock)} (hT : Top s fd k l) : (close s fd).fds = l ∧ (close s fd).mem = s.mem ∧ (close s fd).hs = s.hs ∧ (close s fd).fault = s.fault := by
  rw [hT.close]; exact ⟨rfl, rfl, rfl, rfl⟩

theorem close_top {s : S} {fd : Nat} {k : Sock} (h : s.fds = [(fd, k)]) : (close s fd).fds = [] ∧ (close s fd).mem = s.mem ∧ (close s fd).hs = s.hs ∧ (close s fd).fault = s.fault :=
  top_close_fds (k := k) ⟨h, by simp⟩

theorem listenUnix_spec {addr : List UInt8} {x : Serve} {w : W} {t : S} {r : Res} (h : listenUnix addr x { w := w } = some (r, t)) : Served (· = .unix (addr.take PATHMAX)) r t := by
  unfold listenUnix at h
  split at h
  · cases h; exact .fail _ (by decide) rfl rfl rfl rfl rfl
  · rename_i fd _
    rw [Option.map_eq_some_iff] at h
    obtain ⟨s1, h1, h2⟩ := h
    obtain ⟨_, rfl⟩ := openFd_some h1
    have T0 : Top ({ w := w, fds := [(fd, {})] } : S) fd {} [] := ⟨rfl, by simp⟩
    unfold bindFd at h2
    cases hb : x.bind with
    | some e =>
      simp only [hb] at h2
      cases h2
      exact .fail _ (by decide) rfl (close_top rfl).1 (close_top rfl).2.1 (close_top rfl).2.2.1 (close_top rfl).2.2.2
    | none =>
      simp only [hb, T0.get, T0.set] at h2
      have T1 : Top ({ w := w, fds := [(fd, ⟨false, .bound (.unix (addr.take PATHMAX))⟩)] } : S) fd ⟨false, .bound (.unix (addr.take PATHMAX))⟩ [] := ⟨rfl, by simp⟩
      unfold listenFd at h2
      cases hl : x.listen with
      | some e =>
        simp only [hl] at h2
        cases h2
        exact .fail _ (by decide) rfl (close_top rfl).1 (close_top rfl).2.1 (close_top rfl).2.2.1 (close_top rfl).2.2.2
      | none =>
        simp only [hl, T1.get, T1.set] at h2
        have T2 : Top ({ w := w, fds := [(fd, ⟨false, .listening (.unix (addr.take PATHMAX))⟩)] } : S) fd ⟨false, .listening (.unix (addr.take PATHMAX))⟩ [] := ⟨rfl, by simp⟩
        unfold setNonblock at h2
        cases hn : x.nb with
        | some e =>
          simp only [hn] at h2
          cases h2
          exact .fail _ (by decide) rfl (close_top rfl).1 (close_top rfl).2.1 (close_top rfl).2.2.1 (close_top rfl).2.2.2
        | none =>
          simp only [hn, T2.get, T2.set] at h2
          cases h2
          exact .ok fd _ rfl rfl rfl rfl rfl rfl

theorem listenTcp_spec {addr : List UInt8} {v : Nat} {x : Serve} {w : W} {t : S} {r : Res} (h : listenTcp addr v x { w := w } = some (r, t)) :
    Served (fun b => ∃ m l, x.look.res = .ok m (b :: l)) r t := by
  unfold listenTcp at h
  split at h
  · cases h
  · rename_i s1 h1
    cases h
    obtain ⟨g1, g2⟩ := lookup_spec h1
    cases g1 with
    | exit m nm hf hm hh hq =>
      refine .exit rfl (fun u u1 u2 u3 => ?_)
      rw [hh, unwind_free (l := []) (l' := []) (u2.trans hm) (by simp)]
      exact ⟨u1.trans hf, rfl, u3.trans hq⟩
  · rename_i c s1 h1
    cases h
    obtain ⟨g1, g2⟩ := lookup_spec h1
    cases g1 with
    | err _ hc hs => exact .fail c hc rfl hs.fds hs.mem hs.hs hs.fault
  · rename_i m a l s1 h1
    obtain ⟨g1, g2⟩ := lookup_spec h1
    cases g1 with
    | ok _ _ _ hx nm hf hm hh hq =>
      split at h
      · rename_i e _
        cases h
        rw [free_cons (s := s1.err e) (l := []) (l' := []) hm (by simp)]
        exact .fail _ (by decide) rfl hf rfl hh hq
      · rename_i fd _
        rw [Option.map_eq_some_iff] at h
        obtain ⟨s2, h2, h3⟩ := h
        obtain ⟨_, rfl⟩ := openFd_some h2
        rw [hf] at h3
        have hfe : ∀ e, free (S.err { s1 with fds := [(fd, {})] } e) m = { S.err { s1 with fds := [(fd, {})] } e with mem := [] } := fun e => free_cons (l := []) (l' := []) hm (by simp)
        have hfb : free { s1 with fds := [(fd, ⟨false, .bound a⟩)] } m = { s1 with fds := [(fd, ⟨false, .bound a⟩)], mem := [] } := free_cons (l := []) (l' := []) hm (by simp)
        cases ho : x.opt with
        | some e =>
          simp only [ho, Bool.false_eq_true, ↓reduceIte] at h3
          rw [hfe] at h3
          cases h3
          exact .fail _ (by decide) rfl (close_top rfl).1 (close_top rfl).2.1 ((close_top rfl).2.2.1.trans hh) ((close_top rfl).2.2.2.trans hq)
        | none =>
          simp only [ho, ↓reduceIte] at h3
          have T0 : Top ({ s1 with fds := [(fd, {})] } : S) fd {} [] := ⟨rfl, by simp⟩
          unfold bindFd at h3
          cases hb : x.bind with
          | some e =>
            simp only [hb, Bool.false_eq_true, ↓reduceIte] at h3
            rw [hfe] at h3
            cases h3
            exact .fail _ (by decide) rfl (close_top rfl).1 (close_top rfl).2.1 ((close_top rfl).2.2.1.trans hh) ((close_top rfl).2.2.2.trans hq)
          | none =>
            simp only [hb, T0.get, T0.set, ↓reduceIte] at h3
            rw [hfb] at h3
            unfold listenFd at h3
            have T1 : Top ({ s1 with fds := [(fd, ⟨false, .bound a⟩)], mem := [] } : S) fd ⟨false, .bound a⟩ [] := ⟨rfl, by simp⟩
            cases hl : x.listen with
            | some e =>
              simp only [hl, Bool.false_eq_true, ↓reduceIte] at h3
              cases h3
              exact .fail _ (by decide) rfl (close_top rfl).1 (close_top rfl).2.1 ((close_top rfl).2.2.1.trans hh) ((close_top rfl).2.2.2.trans hq)
            | none =>
              simp only [hl, T1.get, T1.set, ↓reduceIte] at h3
              unfold setNonblock at h3
              have T2 : Top ({ s1 with fds := [(fd, ⟨false, .listening a⟩)], mem := [] } : S) fd ⟨false, .listening a⟩ [] := ⟨rfl, by simp⟩
              cases hn : x.nb with
              | some e =>
                simp only [hn, Bool.false_eq_true, ↓reduceIte] at h3
                cases h3
                exact .fail _ (by decide) rfl (close_top rfl).1 (close_top rfl).2.1 ((close_top rfl).2.2.1.trans hh) ((close_top rfl).2.2.2.trans hq)
              | none =>
                simp only [hn, T2.get, T2.set, ↓reduceIte] at h3
                cases h3
                exact .ok fd a ⟨m, l, hx⟩ rfl rfl rfl hh hq

/-- what an accept can leave -/
inductive Accepted (r : Res) (t : S) : Prop
  | ok (n : Nat) (hr : r = .ret n) (hf : t.fds = [(n, ⟨true, .accepted⟩)]) (hm : t.mem = []) (hh : t.hs = []) (hq : t.fault = false)
  | fail (hr : r = .ret (-1) ∨ r = .exit) (hf : t.fds = []) (hm : t.mem = []) (hh : t.hs = []) (hq : t.fault = false)

theorem acceptDl_spec {dl : Int} {nb : Option Int} : ∀ {ts : List (Turn SysFd)} {s t : S} {r : Res}, acceptDl dl nb ts s = some (r, t) →
    s.fds = [] → s.mem = [] → s.hs = [] → s.fault = false → Accepted r t
  | [], _, _, _, h, _, _, _, _ => by simp [acceptDl] at h
  | x :: ts, s, t, r, h, h1, h2, h3, h4 => by
    unfold acceptDl at h
    dsimp only at h
    split at h
    · cases h; exact .fail (.inl rfl) h1 h2 h3 h4
    split at h
    · split at h
      · split at h
        · cases h; exact .fail (.inr rfl) h1 h2 h3 h4
        · exact acceptDl_spec h h1 h2 h3 h4
      · cases h; exact .fail (.inl rfl) h1 h2 h3 h4
    · rename_i fd _
      rw [Option.map_eq_some_iff] at h
      obtain ⟨s2, e2, e3⟩ := h
      obtain ⟨_, rfl⟩ := openFd_some e2
      unfold setNonblock at e3
      have T0 : Top ({ { s with w := (checkdl s.w dl x.now).2 } with fds := (fd, { st := .accepted }) :: s.fds } : S) fd { st := .accepted } [] := ⟨by rw [h1], by simp⟩
      cases hn : nb with
      | some e =>
        simp only [hn] at e3
        cases e3
        exact .fail (.inl rfl) (close_top (k := { st := .accepted }) (by show (_ :: s.fds) = _; rw [h1])).1 ((close_top (k := { st := .accepted }) (by show (_ :: s.fds) = _; rw [h1])).2.1.trans h2) ((close_top (k := { st := .accepted }) (by show (_ :: s.fds) = _; rw [h1])).2.2.1.trans h3) ((close_top (k := { st := .accepted }) (by show (_ :: s.fds) = _; rw [h1])).2.2.2.trans h4)
      | none =>
        simp only [hn, T0.get, T0.set] at e3
        cases e3
        exact .ok fd rfl rfl h2 h3 h4

end Neco.Net
