import Verif.Proof.Net2
import Verif.Proof.Io2

/-! # Lemmas about the results of connect and accept -/

namespace Neco.Net
open Neco.Err Neco.Io

theorem checkdl_cases {w : W} {dl now : Int} : ((checkdl w dl now).1 = OK ∧ (checkdl w dl now).2.canceled = false ∧ (checkdl w dl now).2.deadlined = false ∧ w.canceled = false ∧ w.deadlined = false) ∨
    ((checkdl w dl now).1 = CANCELED ∧ w.canceled = true) ∨
    ((checkdl w dl now).1 = TIMEDOUT ∧ (w.deadlined = true ∨ (dl < MAX ∧ dl < now))) := by
  unfold checkdl
  cases h1 : w.canceled <;> cases h2 : w.deadlined <;> simp
  by_cases h3 : dl = MAX
  · simp [h3, h1, h2]
  · simp only [h3, ↓reduceIte]
    by_cases h4 : dl < MAX ∧ dl < now
    · right; simp [h4]
    · left
      have : ¬ (dl < MAX ∧ dl < now) := h4
      simp_all
      omega

theorem checkdl_async {w : W} {dl now : Int} : (checkdl w dl now).2.async = w.async := by
  unfold checkdl; split <;> rfl

/-- nothing was begun -/
def Idle : St → Prop
  | .fresh => True
  | .bound _ => True
  | .failed _ => True
  | _ => False

theorem kconnect_idle {a : Addr} {st st' : St} {r : Cr} (e : kconnect a st r = some st') :
    (r = .again → Idle st') ∧ ((∃ x, r = .err x) → Idle st') ∧ (Idle st → r = .nomem → Idle st') ∧ (Idle st → r ≠ .isconn) := by
  unfold kconnect at e
  split at e <;> (try split at e) <;> (try cases e) <;> simp_all [Idle]

theorem bg_idle {st st' : St} {b : Bg} (h : Idle st) (e : bg st b = some st') : Idle st' := by
  unfold bg at e
  split at e
  · cases e; exact h
  · exact h.elim
  · exact h.elim
  · cases e

theorem connectDl_idle {a : Addr} {dl : Int} : ∀ {ts : List (Turn SysC)} {inprog : Bool} {k k' : Sock} {w w' : W},
    connectDl a dl inprog ts k w = some (.ret (-1), k', w') → (∀ t ∈ ts, (∀ b, t.sys.r ≠ .intr b) ∧ t.sys.r ≠ .already) → (inprog = false → Idle k.st) →
    w'.errno = sysECANCELED ∨ w'.errno = sysETIMEDOUT ∨ Idle k'.st
  | [], _, _, _, _, _, h, _, _ => by simp [connectDl] at h
  | t :: ts, inprog, k, k', w, w', h, hts, hi => by
    have ht := hts t (by simp)
    have hts' := fun u hu => hts u (List.mem_cons_of_mem _ hu)
    unfold connectDl at h
    dsimp only at h
    split at h
    · cases h
      simp only [dlErrno]
      split
      · exact .inl rfl
      · exact .inr (.inl rfl)
    split at h
    · cases h
    rename_i st hst
    rw [Option.bind_eq_some_iff] at hst
    obtain ⟨st1, h1, h2⟩ := hst
    obtain ⟨m1, m2, m3, m4⟩ := kconnect_idle h2
    split at h
    · cases h
    · rename_i hr
      cases inprog with
      | true => cases h
      | false => exact absurd hr (m4 (bg_idle (hi rfl) h1))
    · rename_i hr; cases h; exact .inr (.inr (m1 hr))
    · split at h
      · cases h
      · exact connectDl_idle (k := { k with st := st }) h hts' (by simp)
    · rename_i b hr; exact absurd hr (ht.1 b)
    · rename_i hr
      exact connectDl_idle (k := { k with st := st }) h hts' (fun hf => m3 (bg_idle (hi hf) h1) hr)
    · rename_i hr; exact absurd hr ht.2
    · rename_i x hr; cases h; exact .inr (.inr (m2 ⟨x, hr⟩))

/-- what stands behind `ETIMEDOUT` and `ECANCELED` -/
def Told {σ : Type} (fail : σ → Int → Prop) (dl : Int) (ts : List (Turn σ)) (w : W) (e : Int) : Prop :=
  (e = sysETIMEDOUT → w.deadlined = true ∨ (dl < MAX ∧ ∃ t ∈ ts, dl < t.now) ∨ (∃ t ∈ ts, t.expire = true) ∨ ∃ t ∈ ts, fail t.sys sysETIMEDOUT) ∧
  (e = sysECANCELED → w.canceled = true ∨ (∃ t ∈ ts, t.cancel = true) ∨ ∃ t ∈ ts, fail t.sys sysECANCELED)

theorem Told.cons {σ : Type} {fail : σ → Int → Prop} {dl : Int} {t : Turn σ} {ts : List (Turn σ)} {w w' : W} {e : Int} (h : Told fail dl ts w' e)
    (h1 : w'.deadlined = true → t.expire = true) (h2 : w'.canceled = true → t.cancel = true) : Told fail dl (t :: ts) w e := by
  refine ⟨fun he => ?_, fun he => ?_⟩
  · rcases h.1 he with h | ⟨h, u, hu, hn⟩ | ⟨u, hu, hn⟩ | ⟨u, hu, hn⟩
    · exact .inr (.inr (.inl ⟨t, by simp, h1 h⟩))
    · exact .inr (.inl ⟨h, u, by simp [hu], hn⟩)
    · exact .inr (.inr (.inl ⟨u, by simp [hu], hn⟩))
    · exact .inr (.inr (.inr ⟨u, by simp [hu], hn⟩))
  · rcases h.2 he with h | ⟨u, hu, hn⟩ | ⟨u, hu, hn⟩
    · exact .inr (.inl ⟨t, by simp, h2 h⟩)
    · exact .inr (.inl ⟨u, by simp [hu], hn⟩)
    · exact .inr (.inr ⟨u, by simp [hu], hn⟩)

theorem Told.now {σ : Type} {fail : σ → Int → Prop} {dl : Int} {t : Turn σ} {ts : List (Turn σ)} {w : W} {e : Int} (h : e = sysETIMEDOUT ∨ e = sysECANCELED → fail t.sys e) : Told fail dl (t :: ts) w e :=
  ⟨fun he => .inr (.inr (.inr ⟨t, by simp, he ▸ h (.inl he)⟩)), fun he => .inr (.inr ⟨t, by simp, he ▸ h (.inr he)⟩)⟩

theorem told_dl {σ : Type} {fail : σ → Int → Prop} {dl : Int} {t : Turn σ} {ts : List (Turn σ)} {w : W} (h : (checkdl w dl t.now).1 ≠ OK) : Told fail dl (t :: ts) w (dlErrno (checkdl w dl t.now).1) := by
  rcases checkdl_cases (w := w) (dl := dl) (now := t.now) with ⟨h1, _⟩ | ⟨h1, h2⟩ | ⟨h1, h2⟩
  · exact absurd h1 h
  · rw [h1]
    exact ⟨fun he => by simp [dlErrno, sysECANCELED, sysETIMEDOUT] at he, fun _ => .inl h2⟩
  · rw [h1]
    refine ⟨fun _ => ?_, fun he => by simp [dlErrno, TIMEDOUT, CANCELED, sysECANCELED, sysETIMEDOUT] at he⟩
    rcases h2 with h2 | h2
    · exact .inl h2
    · exact .inr (.inl ⟨h2.1, t, by simp, h2.2⟩)

theorem connectDl_told {a : Addr} {dl : Int} : ∀ {ts : List (Turn SysC)} {inprog : Bool} {k k' : Sock} {w w' : W},
    connectDl a dl inprog ts k w = some (.ret (-1), k', w') → Told (fun x e => x.r = .err e) dl ts w w'.errno
  | [], _, _, _, _, _, h => by simp [connectDl] at h
  | t :: ts, inprog, k, k', w, w', h => by
    unfold connectDl at h
    dsimp only at h
    split at h
    · rename_i hc
      cases h; exact told_dl hc
    rename_i hc
    have hw : (checkdl w dl t.now).2.canceled = false ∧ (checkdl w dl t.now).2.deadlined = false := by
      rcases checkdl_cases (w := w) (dl := dl) (now := t.now) with ⟨_, h1, h2, _⟩ | ⟨h1, _⟩ | ⟨h1, _⟩
      · exact ⟨h1, h2⟩
      · rw [h1] at hc; exact absurd (by decide) hc
      · rw [h1] at hc; exact absurd (by decide) hc
    split at h
    · cases h
    split at h
    · cases h
    · rename_i hr
      simp only [Option.some.injEq, Prod.mk.injEq] at h
      obtain ⟨_, _, rfl⟩ := h
      refine .now (fun he => ?_)
      simp [hr, Cr.errno, sysEISCONN, sysETIMEDOUT, sysECANCELED] at he
    · cases h
      refine .now (fun he => ?_)
      simp [sysECONNREFUSED, sysETIMEDOUT, sysECANCELED] at he
    · split at h
      · cases h
      · exact (connectDl_told h).cons (by simp [pass]) (by simp [pass, hw.1])
    · exact (connectDl_told h).cons (by simp [hw.2]) (by simp [hw.1])
    · exact (connectDl_told h).cons (by simp [hw.2]) (by simp [hw.1])
    · rename_i hr
      cases h
      refine .now (fun he => ?_)
      simp [hr, Cr.errno, sysEALREADY, sysETIMEDOUT, sysECANCELED] at he
    · rename_i x hr
      cases h
      refine .now (fun he => ?_)
      rw [hr]; rfl

theorem acceptDl_told {dl : Int} {nb : Option Int} : ∀ {ts : List (Turn SysFd)} {s t : S}, acceptDl dl nb ts s = some (.ret (-1), t) → nb = none →
    Told (fun x e => x = .err e) dl ts s.w t.w.errno
  | [], _, _, h, _ => by simp [acceptDl] at h
  | x :: ts, s, t, h, hn => by
    unfold acceptDl at h
    dsimp only at h
    split at h
    · rename_i hc
      cases h; exact told_dl hc
    rename_i hc
    have hw : (checkdl s.w dl x.now).2.canceled = false ∧ (checkdl s.w dl x.now).2.deadlined = false := by
      rcases checkdl_cases (w := s.w) (dl := dl) (now := x.now) with ⟨_, h1, h2, _⟩ | ⟨h1, _⟩ | ⟨h1, _⟩
      · exact ⟨h1, h2⟩
      · rw [h1] at hc; exact absurd (by decide) hc
      · rw [h1] at hc; exact absurd (by decide) hc
    split at h
    · rename_i e hx
      split at h
      · split at h
        · cases h
        · exact (acceptDl_told h hn).cons (by simp [pass]) (by simp [pass, S.err, hw.1])
      · cases h
        exact .now (fun _ => hx)
    · rename_i fd _
      rw [Option.map_eq_some_iff] at h
      obtain ⟨s2, e2, e3⟩ := h
      obtain ⟨_, rfl⟩ := openFd_some e2
      unfold setNonblock at e3
      subst hn
      simp only at e3
      have hg : getFd { { s with w := (checkdl s.w dl x.now).2 } with fds := (fd, { st := .accepted }) :: s.fds } fd = some { st := .accepted } := by
        unfold getFd; simp
      simp only [hg] at e3
      cases e3

theorem connectDl_cancel {a : Addr} {dl : Int} {t0 : Turn SysC} {post : List (Turn SysC)} (h0 : t0.cancel = true) (hr : t0.sys.r = .inprogress) :
    ∀ {pre : List (Turn SysC)} {inprog : Bool} {k k' : Sock} {w w' : W} {r : Res}, connectDl a dl inprog (pre ++ [t0]) k w = none →
      connectDl a dl inprog (pre ++ t0 :: post) k w = some (r, k', w') → r = .exit ∨ (r = .ret (-1) ∧ w'.errno = sysECANCELED)
  | [], inprog, k, k', w, w', r, h, h1 => by
    simp only [List.nil_append] at h h1
    unfold connectDl at h h1
    dsimp only at h h1
    by_cases hc : (checkdl w dl t0.now).1 ≠ OK
    · rw [if_pos hc] at h; cases h
    rw [if_neg hc] at h1
    split at h1
    · cases h1
    simp only [hr] at h1
    split at h1
    · cases h1; exact .inl rfl
    · cases post with
      | nil => simp [connectDl] at h1
      | cons t1 post =>
        unfold connectDl at h1
        dsimp only at h1
        split at h1
        · rename_i hc
          rcases checkdl_no hc with ⟨_, e⟩ | ⟨e, _⟩
          · rw [e] at h1
            cases h1
            exact .inr ⟨rfl, rfl⟩
          · simp [pass, h0] at e
        · rename_i hc
          have hc : (checkdl _ _ _).1 = OK := Decidable.not_not.mp hc
          have := (checkdl_ok hc).1
          simp [pass, h0] at this
  | t :: pre, inprog, k, k', w, w', r, h, h1 => by
    rw [List.cons_append] at h h1
    unfold connectDl at h h1
    dsimp only at h h1
    by_cases hc : (checkdl w dl t.now).1 ≠ OK
    · rw [if_pos hc] at h; cases h
    rw [if_neg hc] at h h1
    split at h1
    · cases h1
    rename_i st hst
    rw [hst] at h
    simp only at h
    cases hcr : t.sys.r with
    | inprogress =>
      simp only [hcr] at h h1
      split at h
      · cases h
      · rename_i hn
        rw [if_neg hn] at h1
        exact connectDl_cancel h0 hr h h1
    | intr b => simp only [hcr] at h h1; exact connectDl_cancel h0 hr h h1
    | nomem => simp only [hcr] at h h1; exact connectDl_cancel h0 hr h h1
    | ok => simp only [hcr] at h; cases h
    | isconn => simp only [hcr] at h; cases h
    | again => simp only [hcr] at h; cases h
    | already => simp only [hcr] at h; cases h
    | err e => simp only [hcr] at h; cases h

end Neco.Net
