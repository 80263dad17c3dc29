import Verif.Props.Net
import Verif.Props.IoCancel

/-! # C62, C63: a dial, for every network and any number of addresses, or an accept that is canceled while it waits

`calm t` is the turn `t` without the cancelation.  That a dial which is given the turns up to `calm t` has not returned, whatever is prepared for
later attempts, says that it waits in that turn. -/

namespace Neco.Net
open Neco.Err Neco.Io

theorem connectDl_wait {a : Addr} {dl : Int} {t0 : Turn SysC} {post : List (Turn SysC)} (h0 : t0.cancel = true) (hr : t0.sys.r = .inprogress) :
    ∀ {pre : List (Turn SysC)} {inprog : Bool} {k k' : Sock} {w w' : W} {r : Res}, connectDl a dl inprog (pre ++ [calm t0]) k w = none →
      connectDl a dl inprog (pre ++ t0 :: post) k w = some (r, k', w') →
      (w.async = true → r = .exit) ∧ (r = .exit ∨ (r = .ret (-1) ∧ w'.errno = sysECANCELED))
  | [], inprog, k, k', w, w', r, h, h1 => by
    simp only [List.nil_append] at h h1
    unfold connectDl at h h1
    dsimp only [calm] at h h1
    by_cases hc : (checkdl w dl t0.now).1 ≠ OK
    · rw [if_pos hc] at h; cases h
    rw [if_neg hc] at h1
    split at h1
    · cases h1
    simp only [hr] at h1
    have ea : (checkdl w dl t0.now).2.async = w.async := checkdl_async
    split at h1
    · cases h1; exact ⟨fun _ => rfl, .inl rfl⟩
    · rename_i hn
      refine ⟨fun ha => absurd ?_ hn, ?_⟩
      · simp [pass, h0, ea, ha]
      cases post with
      | nil => simp [connectDl] at h1
      | cons t1 post =>
        unfold connectDl at h1
        dsimp only at h1
        split at h1
        · rename_i hc
          rcases checkdl_no hc with ⟨_, e⟩ | ⟨e, _⟩
          · rw [e] at h1
            cases h1
            exact .inr ⟨rfl, rfl⟩
          · simp [pass, h0] at e
        · rename_i hc
          have hc : (checkdl _ _ _).1 = OK := Decidable.not_not.mp hc
          have := (checkdl_ok hc).1
          simp [pass, h0] at this
  | t :: pre, inprog, k, k', w, w', r, h, h1 => by
    rw [List.cons_append] at h h1
    unfold connectDl at h h1
    dsimp only at h h1
    have ea : (checkdl w dl t.now).2.async = w.async := checkdl_async
    by_cases hc : (checkdl w dl t.now).1 ≠ OK
    · rw [if_pos hc] at h; cases h
    rw [if_neg hc] at h h1
    split at h1
    · cases h1
    rename_i st hst
    rw [hst] at h
    simp only at h
    cases hcr : t.sys.r with
    | inprogress =>
      simp only [hcr] at h h1
      split at h
      · cases h
      · rename_i hn
        rw [if_neg hn] at h1
        have := connectDl_wait h0 hr h h1
        rw [← ea]; exact this
    | intr b =>
      simp only [hcr] at h h1
      have := connectDl_wait h0 hr h h1
      rw [← ea]; exact this
    | nomem =>
      simp only [hcr] at h h1
      have := connectDl_wait h0 hr h h1
      rw [← ea]; exact this
    | ok => simp only [hcr] at h; cases h
    | isconn => simp only [hcr] at h; cases h
    | again => simp only [hcr] at h; cases h
    | already => simp only [hcr] at h; cases h
    | err e => simp only [hcr] at h; cases h

theorem connectDl_async {a : Addr} {dl : Int} : ∀ {ts : List (Turn SysC)} {inprog : Bool} {k k' : Sock} {w w' : W} {r : Res},
    connectDl a dl inprog ts k w = some (r, k', w') → w'.async = w.async
  | [], _, _, _, _, _, _, h => by cases h
  | t :: ts, inprog, k, k', w, w', r, h => by
    unfold connectDl at h
    dsimp only at h
    have ea : (checkdl w dl t.now).2.async = w.async := checkdl_async
    split at h
    · cases h; exact ea
    split at h
    · cases h
    split at h
    · cases h; exact ea
    · cases h; exact ea
    · cases h; exact ea
    · split at h
      · cases h; exact ea
      · exact (connectDl_async h).trans ea
    · exact (connectDl_async h).trans ea
    · exact (connectDl_async h).trans ea
    · cases h; exact ea
    · cases h; exact ea

theorem connect_wait {a : Addr} {dl : Int} {t0 : Turn SysC} {pre post : List (Turn SysC)} {k k' : Sock} {w w' : W} {r : Res}
    (h0 : t0.cancel = true) (hr : t0.sys.r = .inprogress) (hp : connect a dl (pre ++ [calm t0]) k w = none)
    (h : connect a dl (pre ++ t0 :: post) k w = some (r, k', w')) :
    (w.async = true → r = .exit) ∧ (r = .exit ∨ (r = .ret (-1) ∧ w'.errno = sysECANCELED)) := by
  unfold connect at h hp
  rw [Option.map_eq_none_iff] at hp
  rw [Option.map_eq_some_iff] at h
  obtain ⟨⟨r0, k0, w0⟩, h1, h2⟩ := h
  simp only [Prod.mk.injEq] at h2
  obtain ⟨rfl, _, rfl⟩ := h2
  obtain ⟨g1, g2⟩ := connectDl_wait h0 hr hp h1
  refine ⟨fun ha => by rw [g1 ha]; rfl, ?_⟩
  rcases g2 with rfl | ⟨rfl, e⟩
  · exact .inl rfl
  · cases hg : (guardA (.ret (-1)) w0).1 with
    | exit => exact .inl rfl
    | ret m =>
      have := guardA_ret hg
      cases this
      exact .inr ⟨rfl, e⟩

theorem connect_async {a : Addr} {dl : Int} {ts : List (Turn SysC)} {k k' : Sock} {w w' : W} {r : Res}
    (h : connect a dl ts k w = some (r, k', w')) : w'.async = w.async := by
  unfold connect at h
  rw [Option.map_eq_some_iff] at h
  obtain ⟨⟨r0, k0, w0⟩, h1, h2⟩ := h
  simp only [Prod.mk.injEq] at h2
  obtain ⟨_, _, rfl⟩ := h2
  exact (guardA_w _ _).2.2.2.2.2.2.trans (connectDl_async h1)

theorem close_nat_w (s : S) (fd : Nat) : (close s fd).w = s.w := by
  unfold close
  rw [if_neg (by omega)]
  split <;> rfl
theorem close_async (s : S) (fd : Int) : (close s fd).w.async = s.w.async := by
  unfold close S.err
  repeat' split
  all_goals rfl
theorem free_w (s : S) (m : Nat) : (free s m).w = s.w := by
  unfold free
  split <;> rfl
theorem pop_async (s : S) : (pop s).w.async = s.w.async := by
  unfold pop
  split
  · unfold runH
    split
    · exact close_async _ _
    · rw [free_w]
  · rfl

theorem setNonblock_async {s u : S} {fd : Nat} {e : Option Int} {b : Bool} (h : setNonblock s fd e = (b, u)) : u.w.async = s.w.async := by
  unfold setNonblock at h
  split at h <;> cases h <;> rfl

theorem dialConnect_async {a : Addr} {dl : Int} {t : Att} {s u : S} {r : Res} (h : dialConnect a dl t s = some (r, u)) : u.w.async = s.w.async := by
  unfold dialConnect at h
  dsimp only at h
  split at h
  · cases h; rfl
  · rename_i fd _
    rw [Option.bind_eq_some_iff] at h
    obtain ⟨s1, h1, h2⟩ := h
    have e1 : s1.w = s.w := by rw [(openFd_some h1).2]
    split at h2
    · rename_i s2 hb
      cases h2
      rw [close_async, setNonblock_async hb, e1]
    · rename_i s2 hb
      have e2 := setNonblock_async hb
      rw [e1] at e2
      split at h2
      · cases h2
      · split at h2
        · cases h2
        · rename_i hc
          cases h2
          exact (connect_async hc).trans e2
        · rename_i hc
          split at h2
          · cases h2
            rw [pop_async]
            exact (connect_async hc).trans e2
          · cases h2
            rw [pop_async]
            exact (connect_async hc).trans e2

theorem dialConnect_wait {a : Addr} {dl : Int} {att : Att} {t0 : Turn SysC} {pre post : List (Turn SysC)} {s u : S} {r : Res}
    (h0 : t0.cancel = true) (hr : t0.sys.r = .inprogress) (hp : dialConnect a dl { att with ts := pre ++ [calm t0] } s = none)
    (h : dialConnect a dl { att with ts := pre ++ t0 :: post } s = some (r, u)) :
    (s.w.async = true → r = .exit) ∧ (r = .exit ∨ (r = .ret (-1) ∧ u.w.errno = sysECANCELED)) := by
  unfold dialConnect at h hp
  dsimp only at h hp
  cases hs : att.sock with
  | err e => rw [hs] at hp; cases hp
  | got fd =>
    rw [hs] at hp h
    dsimp only at h hp
    cases ho : openFd { s with tried := s.tried ++ [a] } fd {} with
    | none => rw [ho] at h; cases h
    | some s1 =>
      rw [ho, Option.bind_some] at h hp
      have e1 : s1.w = s.w := by rw [(openFd_some ho).2]
      rcases hb : setNonblock s1 fd att.nb with ⟨b, s2⟩
      rw [hb] at h hp
      have e2 := setNonblock_async hb
      rw [e1] at e2
      cases b with
      | false => cases hp
      | true =>
        dsimp only at h hp
        cases hk : getFd (push s2 (.close fd)) fd with
        | none => rw [hk] at h; cases h
        | some k =>
          rw [hk] at h hp
          dsimp only at h hp
          cases hc : connect a dl (pre ++ t0 :: post) k (push s2 (.close fd)).w with
          | none => rw [hc] at h; cases h
          | some q =>
            obtain ⟨q, k1, w1⟩ := q
            cases hc0 : connect a dl (pre ++ [calm t0]) k (push s2 (.close fd)).w with
            | some q0 =>
              obtain ⟨q0, k0, w0⟩ := q0
              rw [hc0] at hp
              exfalso
              cases q0 with
              | exit => cases hp
              | ret n => dsimp only at hp; split at hp <;> cases hp
            | none =>
              rw [hc] at h
              obtain ⟨g1, g2⟩ := connect_wait h0 hr hc0 hc
              rcases g2 with rfl | ⟨rfl, e⟩
              · cases h; exact ⟨fun _ => rfl, .inl rfl⟩
              · have ha : s.w.async ≠ true := by
                  intro ha
                  have := g1 (e2.trans ha)
                  cases this
                refine ⟨fun h => absurd h ha, .inr ?_⟩
                dsimp only at h
                rw [if_neg (by decide)] at h
                cases h
                refine ⟨rfl, ?_⟩
                rw [pop_cons rfl]
                unfold runH
                dsimp only
                rw [close_nat_w]
                exact e

/-- attempts that all fail at once -/
theorem dialLoop_all (dl : Int) : ∀ (l : List Addr) (s : S), ∃ q, dialLoop dl l (List.replicate l.length { sock := .err 24, ts := [] }) s = some q
  | [], s => ⟨_, rfl⟩
  | a :: l, s => by
    rw [List.length_cons, List.replicate_succ]
    unfold dialLoop dialConnect
    dsimp only
    rw [if_neg (by decide)]
    exact dialLoop_all dl l _

theorem dialLoop_wait {dl : Int} {att : Att} {t0 : Turn SysC} {pre post : List (Turn SysC)} {more : List Att} (h0 : t0.cancel = true) (hr : t0.sys.r = .inprogress) :
    ∀ {as : List Att} {l : List Addr} {s u : S} {r : Res}, (∀ more, dialLoop dl l (as ++ { att with ts := pre ++ [calm t0] } :: more) s = none) →
      dialLoop dl l (as ++ { att with ts := pre ++ t0 :: post } :: more) s = some (r, u) →
      (s.w.async = true → r = .exit) ∧ (l.length = as.length + 1 → r = .exit ∨ (r = .ret (-1) ∧ u.w.errno = sysECANCELED))
  | [], [], _, _, _, hp, _ => by cases hp []
  | _ :: _, [], _, _, _, hp, _ => by cases hp []
  | [], a :: l, s, u, r, hp, h => by
    simp only [List.nil_append] at hp h
    unfold dialLoop at h
    have hp0 : dialConnect a dl { att with ts := pre ++ [calm t0] } s = none := by
      cases hc : dialConnect a dl { att with ts := pre ++ [calm t0] } s with
      | none => rfl
      | some q =>
        obtain ⟨q, s1⟩ := q
        exfalso
        obtain ⟨z, hz⟩ := dialLoop_all dl l s1
        have := hp (List.replicate l.length { sock := .err 24, ts := [] })
        unfold dialLoop at this
        rw [hc] at this
        cases q with
        | exit => cases this
        | ret n =>
          dsimp only at this
          split at this
          · cases this
          · rw [hz] at this; cases this
    cases hc : dialConnect a dl { att with ts := pre ++ t0 :: post } s with
    | none => rw [hc] at h; cases h
    | some q =>
      obtain ⟨q, s1⟩ := q
      rw [hc] at h
      obtain ⟨g1, g2⟩ := dialConnect_wait h0 hr hp0 hc
      rcases g2 with rfl | ⟨rfl, e⟩
      · cases h; exact ⟨fun _ => rfl, fun _ => .inl rfl⟩
      · refine ⟨fun ha => (by cases g1 ha), fun hl => ?_⟩
        have : l = [] := by simpa using hl
        subst this
        dsimp only at h
        rw [if_neg (by decide)] at h
        unfold dialLoop at h
        cases h
        exact .inr ⟨rfl, e⟩
  | a0 :: as, a :: l, s, u, r, hp, h => by
    simp only [List.cons_append] at hp h
    unfold dialLoop at h
    cases hc : dialConnect a dl a0 s with
    | none => rw [hc] at h; cases h
    | some q =>
      obtain ⟨q, s1⟩ := q
      have hp' : ∀ more, dialLoop dl (a :: l) (a0 :: (as ++ { att with ts := pre ++ [calm t0] } :: more)) s = none := hp
      unfold dialLoop at hp'
      rw [hc] at h hp'
      cases q with
      | exit => cases hp' []
      | ret n =>
        dsimp only at h hp'
        by_cases hn : n ≠ -1
        · have := hp' []
          rw [if_pos hn] at this
          cases this
        · rw [if_neg hn] at h
          have hp'' : ∀ more, dialLoop dl l (as ++ { att with ts := pre ++ [calm t0] } :: more) s1 = none := by
            intro m
            have := hp' m
            rwa [if_neg hn] at this
          obtain ⟨g1, g2⟩ := dialLoop_wait h0 hr hp'' h
          refine ⟨fun ha => g1 ((dialConnect_async hc).trans ha), fun hl => g2 (by simpa using hl)⟩

theorem lookup_async {addr : List UInt8} {vers : Nat} {x : Look} {s u : S} {r : Lk} (h : lookup addr vers x s = some (r, u)) : u.w.async = s.w.async := by
  unfold lookup at h
  dsimp only at h
  repeat' split at h
  all_goals first
    | (cases h; done)
    | (cases h; rfl)
    | (cases h; rw [pop_async]; rfl)

theorem dialTcp_wait {address : List UInt8} {vers : Nat} {dl : Int} {x : Dial} {att : Att} {t0 : Turn SysC} {pre post : List (Turn SysC)} {as more : List Att}
    {s u : S} {r : Res} (h0 : t0.cancel = true) (hr : t0.sys.r = .inprogress)
    (hp : ∀ more, dialTcp address vers dl { x with atts := as ++ { att with ts := pre ++ [calm t0] } :: more } s = none)
    (h : dialTcp address vers dl { x with atts := as ++ { att with ts := pre ++ t0 :: post } :: more } s = some (r, u)) :
    (s.w.async = true → r = .exit) ∧ (∀ m l, x.look.res = .ok m l → l.length = as.length + 1 → r = .exit ∨ r = .ret CANCELED) := by
  unfold dialTcp at h hp
  dsimp only at h hp
  cases hl : lookup address vers x.look s with
  | none => rw [hl] at h; cases h
  | some q =>
    obtain ⟨q, s1⟩ := q
    rw [hl] at h hp
    cases q with
    | exit => cases hp []
    | err c => cases hp []
    | ok m a l =>
      dsimp only at h hp
      have hp' : ∀ more, dialLoop dl (a :: l) (as ++ { att with ts := pre ++ [calm t0] } :: more) (push s1 (.free m)) = none := by
        intro more
        have := hp more
        cases hd : dialLoop dl (a :: l) (as ++ { att with ts := pre ++ [calm t0] } :: more) (push s1 (.free m)) with
        | none => rfl
        | some z =>
          obtain ⟨z, s2⟩ := z
          rw [hd] at this
          cases z <;> cases this
      cases hd : dialLoop dl (a :: l) (as ++ { att with ts := pre ++ t0 :: post } :: more) (push s1 (.free m)) with
      | none => rw [hd] at h; cases h
      | some z =>
        obtain ⟨z, s2⟩ := z
        rw [hd] at h
        obtain ⟨g1, g2⟩ := dialLoop_wait h0 hr hp' hd
        have ea : (push s1 (.free m)).w.async = s.w.async := lookup_async (u := s1) hl
        refine ⟨fun ha => ?_, fun m' l' hres hlen => ?_⟩
        · have := g1 (ea.trans ha)
          subst this
          cases h; rfl
        · have hL := (lookup_spec hl).1
          have : (a :: l).length = as.length + 1 := by
            cases hL with
            | ok _ _ _ hx =>
              rw [hx] at hres
              cases hres
              exact hlen
          rcases g2 this with rfl | ⟨rfl, e⟩
          · cases h; exact .inl rfl
          · cases h
            right
            show Res.ret (if (-1 : Int) = -1 then fromSys s2.w.errno else -1) = _
            rw [if_pos rfl, e]
            rfl
theorem dialUnix_wait {address : List UInt8} {dl : Int} {x : Dial} {att : Att} {t0 : Turn SysC} {pre post : List (Turn SysC)} {as more : List Att}
    {s u : S} {r : Res} (h0 : t0.cancel = true) (hr : t0.sys.r = .inprogress)
    (hp : ∀ more, dialUnix address dl { x with atts := as ++ { att with ts := pre ++ [calm t0] } :: more } s = none)
    (h : dialUnix address dl { x with atts := as ++ { att with ts := pre ++ t0 :: post } :: more } s = some (r, u)) :
    (s.w.async = true → r = .exit) ∧ (r = .exit ∨ r = .ret CANCELED) := by
  unfold dialUnix at h hp
  split at h
  · rename_i hl
    have := hp []
    rw [if_pos hl] at this
    cases this
  · rename_i hl
    replace hp := hp []
    rw [if_neg hl] at hp
    cases as with
    | cons a0 as =>
      simp only [List.cons_append] at h hp
      cases hc : dialConnect (.unix (address.take PATHMAX)) dl a0 s with
      | none => rw [hc] at h; cases h
      | some z =>
        obtain ⟨z, s1⟩ := z
        rw [hc] at hp
        cases z <;> cases hp
    | nil =>
      simp only [List.nil_append] at h hp
      have hp0 : dialConnect (.unix (address.take PATHMAX)) dl { att with ts := pre ++ [calm t0] } s = none := by
        cases hc : dialConnect (.unix (address.take PATHMAX)) dl { att with ts := pre ++ [calm t0] } s with
        | none => rfl
        | some z =>
          obtain ⟨z, s1⟩ := z
          rw [hc] at hp
          cases z <;> cases hp
      cases hc : dialConnect (.unix (address.take PATHMAX)) dl { att with ts := pre ++ t0 :: post } s with
      | none => rw [hc] at h; cases h
      | some z =>
        obtain ⟨z, s1⟩ := z
        rw [hc] at h
        obtain ⟨g1, g2⟩ := dialConnect_wait h0 hr hp0 hc
        rcases g2 with rfl | ⟨rfl, e⟩
        · cases h; exact ⟨fun _ => rfl, .inl rfl⟩
        · refine ⟨fun ha => (by cases g1 ha), .inr ?_⟩
          cases h
          show Res.ret (if (-1 : Int) = -1 then fromSys u.w.errno else -1) = _
          rw [if_pos rfl, e]
          rfl

theorem finish_guardE {r : Res} {s : S} : (finish guardE r s).1 = r := by
  cases r <;> rfl

theorem dial_wait {network : String} {address : List UInt8} {dl : Int} {x : Dial} {att : Att} {t0 : Turn SysC} {pre post : List (Turn SysC)} {as more : List Att}
    {w : W} {u : S} {r : Res} (h0 : t0.cancel = true) (hr : t0.sys.r = .inprogress)
    (hp : ∀ more, dial true (some network) (some address) dl { x with atts := as ++ { att with ts := pre ++ [calm t0] } :: more } { w := w } = none)
    (h : dial true (some network) (some address) dl { x with atts := as ++ { att with ts := pre ++ t0 :: post } :: more } { w := w } = some (r, u)) :
    (w.async = true → r = .exit) ∧ ((targets network address x.look).length = as.length + 1 → r = .exit ∨ r = .ret CANCELED) := by
  unfold dial at h hp
  simp only [Bool.not_true, Bool.false_eq_true, ↓reduceIte] at h hp
  rw [Option.map_eq_some_iff] at h
  obtain ⟨⟨r0, u0⟩, h1, h2⟩ := h
  have e : r0 = r := by
    have h2 : finish guardE r0 u0 = (r, u) := h2
    rw [← finish_guardE (r := r0) (s := u0), h2]
  subst e
  simp only [Option.map_eq_none_iff] at hp
  have tcp : ∀ {vers : Nat}, network ≠ "unix" → (∀ more, dialTcp address vers dl { x with atts := as ++ { att with ts := pre ++ [calm t0] } :: more } { w := w } = none) →
      dialTcp address vers dl { x with atts := as ++ { att with ts := pre ++ t0 :: post } :: more } { w := w } = some (r0, u0) →
      (w.async = true → r0 = .exit) ∧ ((targets network address x.look).length = as.length + 1 → r0 = .exit ∨ r0 = .ret CANCELED) := by
    intro vers hn hp h
    obtain ⟨g1, g2⟩ := dialTcp_wait h0 hr hp h
    refine ⟨g1, fun hl => ?_⟩
    unfold targets at hl
    rw [if_neg hn] at hl
    split at hl
    · rename_i m l hx
      exact g2 m l hx hl
    · simp at hl
  by_cases c1 : network = "tcp"
  · subst c1
    simp only [↓reduceIte] at hp h1
    exact tcp (by decide) hp h1
  by_cases c2 : network = "tcp4"
  · subst c2
    simp only [↓reduceIte, show ("tcp4" : String) ≠ "tcp" by decide] at hp h1
    exact tcp (by decide) hp h1
  by_cases c3 : network = "tcp6"
  · subst c3
    simp only [↓reduceIte, show ("tcp6" : String) ≠ "tcp" by decide, show ("tcp6" : String) ≠ "tcp4" by decide] at hp h1
    exact tcp (by decide) hp h1
  by_cases c4 : network = "unix"
  · subst c4
    simp only [↓reduceIte, show ("unix" : String) ≠ "tcp" by decide, show ("unix" : String) ≠ "tcp4" by decide, show ("unix" : String) ≠ "tcp6" by decide] at hp h1
    obtain ⟨g1, g2⟩ := dialUnix_wait h0 hr hp h1
    exact ⟨g1, fun _ => g2⟩
  · have := hp []
    simp [c1, c2, c3, c4] at this

/-- With the cancel type asynchronous (the default) a coroutine that is canceled while `neco_dial` waits for a connection does not return from the
call, whichever of the addresses it is trying. -/
theorem C62_cancel_async {network : String} {address : List UInt8} {dl : Int} {x : Dial} {att : Att} {t0 : Turn SysC} {pre post : List (Turn SysC)}
    {as more : List Att} {w : W} {u : S} {r : Res} (h0 : t0.cancel = true) (hr : t0.sys.r = .inprogress) (ha : w.async = true)
    (hp : ∀ more, dial true (some network) (some address) dl { x with atts := as ++ { att with ts := pre ++ [calm t0] } :: more } { w := w } = none)
    (h : dial true (some network) (some address) dl { x with atts := as ++ { att with ts := pre ++ t0 :: post } :: more } { w := w } = some (r, u)) :
    r = .exit :=
  (dial_wait h0 hr hp h).1 ha

/-- With any cancel type, a `neco_dial` that is canceled while it waits for the last of its addresses (the only one of a unix path) reports that, or
does not return.  Missing: with the cancel type inline and further addresses this is false, see `C62_cancel_not_general`. -/
theorem C62_cancel_partial {network : String} {address : List UInt8} {dl : Int} {x : Dial} {att : Att} {t0 : Turn SysC} {pre post : List (Turn SysC)}
    {as more : List Att} {w : W} {u : S} {r : Res} (h0 : t0.cancel = true) (hr : t0.sys.r = .inprogress)
    (hl : (targets network address x.look).length = as.length + 1)
    (hp : ∀ more, dial true (some network) (some address) dl { x with atts := as ++ { att with ts := pre ++ [calm t0] } :: more } { w := w } = none)
    (h : dial true (some network) (some address) dl { x with atts := as ++ { att with ts := pre ++ t0 :: post } :: more } { w := w } = some (r, u)) :
    r = .exit ∨ r = .ret CANCELED :=
  (dial_wait h0 hr hp h).2 hl

theorem acceptDl_waits {dl : Int} {nb : Option Int} {t0 : Turn SysFd} {post : List (Turn SysFd)} (h0 : t0.cancel = true) (h1 : ∃ e, t0.sys = .err e) :
    ∀ {pre : List (Turn SysFd)} {s u : S} {r : Res}, acceptDl dl nb (pre ++ [calm t0]) s = none →
      acceptDl dl nb (pre ++ t0 :: post) s = some (r, u) →
      (s.w.async = true → r = .exit) ∧ (r = .exit ∨ (r = .ret (-1) ∧ u.w.errno = sysECANCELED))
  | [], s, u, r, hp, h => by
    simp only [List.nil_append] at hp h
    unfold acceptDl at hp h
    dsimp only [calm] at hp h
    by_cases hc : (checkdl s.w dl t0.now).1 ≠ OK
    · rw [if_pos hc] at hp; cases hp
    rw [if_neg hc] at hp h
    have ea : (checkdl s.w dl t0.now).2.async = s.w.async := checkdl_async
    obtain ⟨e, he⟩ := h1
    rw [he] at hp h
    dsimp only at hp h
    split at h
    · split at h
      · cases h; exact ⟨fun _ => rfl, .inl rfl⟩
      · rename_i hn
        refine ⟨fun ha => absurd ?_ hn, ?_⟩
        · simp [pass, h0, S.err, ea, ha]
        cases post with
        | nil => simp [acceptDl] at h
        | cons t1 post =>
          unfold acceptDl at h
          dsimp only at h
          rw [checkdl_canceled (by simp [pass, h0]), if_pos (by show CANCELED ≠ OK; decide)] at h
          cases h
          exact .inr ⟨rfl, rfl⟩
    · rename_i hx
      rw [if_neg hx] at hp
      cases hp
  | t :: pre, s, u, r, hp, h => by
    rw [List.cons_append] at hp h
    unfold acceptDl at hp h
    dsimp only at hp h
    by_cases hc : (checkdl s.w dl t.now).1 ≠ OK
    · rw [if_pos hc] at hp; cases hp
    rw [if_neg hc] at hp h
    have ea : (checkdl s.w dl t.now).2.async = s.w.async := checkdl_async
    split at h
    · rename_i e he
      rw [he] at hp
      dsimp only at hp
      split at h
      · rename_i hx
        rw [if_pos hx] at hp
        split at h
        · rename_i hn
          rw [if_pos hn] at hp
          cases hp
        · rename_i hn
          rw [if_neg hn] at hp
          have := acceptDl_waits h0 h1 hp h
          rw [← ea]
          exact this
      · rename_i hx
        rw [if_neg hx] at hp
        cases hp
    · rename_i fd he
      rw [he] at hp
      dsimp only at hp
      rw [Option.map_eq_none_iff] at hp
      rw [hp] at h
      cases h

theorem finish_guardA_w {r : Res} {s : S} : (finish guardA r s).1 = (guardA r s.w).1 := by
  unfold finish
  dsimp only
  split
  · rename_i e; exact e.symm
  · rfl

/-- A coroutine that is canceled while it waits in `neco_accept` does not return from the call, or the call says so; with the asynchronous cancel type
it does not return. -/
theorem C63_cancel {dl : Int} {nb : Option Int} {t0 : Turn SysFd} {pre post : List (Turn SysFd)} {w : W} {u : S} {r : Res} (h0 : t0.cancel = true)
    (h1 : ∃ e, t0.sys = .err e) (hp : accept true dl nb (pre ++ [calm t0]) { w := w } = none) (h : accept true dl nb (pre ++ t0 :: post) { w := w } = some (r, u)) :
    (w.async = true → r = .exit) ∧ (r = .exit ∨ (r = .ret (-1) ∧ u.w.errno = sysECANCELED)) := by
  unfold accept at hp h
  simp only [Bool.not_true, Bool.false_eq_true, ↓reduceIte, Option.map_eq_none_iff] at hp h
  rw [Option.map_eq_some_iff] at h
  obtain ⟨⟨r0, u0⟩, h2, h3⟩ := h
  have h3 : finish guardA r0 u0 = (r, u) := h3
  obtain ⟨g1, g2⟩ := acceptDl_waits h0 h1 hp h2
  have e1 : (guardA r0 u0.w).1 = r := by rw [← finish_guardA_w, h3]
  refine ⟨fun ha => ?_, ?_⟩
  · rw [g1 ha] at e1; exact e1.symm
  · rcases g2 with rfl | ⟨rfl, e⟩
    · exact .inl e1.symm
    · cases r with
      | exit => exact .inl rfl
      | ret n =>
        have := guardA_ret e1
        cases this
        refine .inr ⟨rfl, ?_⟩
        have e2 : (finish guardA (.ret (-1)) u0).2 = u := by rw [h3]
        rw [← e2]
        unfold finish
        dsimp only
        split
        · rename_i e3; rw [e1] at e3; cases e3
        · exact (guardA_w _ _).2.2.2.1.trans e

/-! ## examples -/

/-- the first address refuses, the second one is waited for -/
example : ∀ more, dial true (some "tcp") (some [97, 58, 56, 48]) MAX { look := { host := some 1, res := .ok 2 [.ip 1, .ip 2] }, atts :=
    [{ sock := .err 24, ts := [] }] ++ { sock := .got 3, ts := [] ++ [calm { sys := { r := .inprogress }, cancel := true }] } :: more } { w := { async := false } } = none := by
  intro more; rfl
/-- canceled there, the call says so -/
example : ((dial true (some "tcp") (some "a:80".toUTF8.toList) MAX { look := { host := some 1, res := .ok 2 [.ip 1, .ip 2] }, atts :=
    [{ sock := .err 24, ts := [] }, { sock := .got 3, ts := [{ sys := { r := .inprogress }, cancel := true }, { sys := { r := .already } }] }] } { w := { async := false } }).map (·.1)) =
    some (.ret CANCELED) := by decide +kernel
/-- and with the asynchronous type it does not return, even with a further address -/
example : ((dial true (some "tcp") (some "a:80".toUTF8.toList) MAX { look := { host := some 1, res := .ok 2 [.ip 1, .ip 2, .ip 3] }, atts :=
    [{ sock := .err 24, ts := [] }, { sock := .got 3, ts := [{ sys := { r := .inprogress }, cancel := true }] }] } {}).map (·.1)) = some .exit := by decide +kernel
/-- an accept that waits, and is canceled -/
example : (accept true MAX none ([] ++ [calm { sys := .err 11, cancel := true }]) { w := { async := false } }).isNone = true ∧
    ((accept true MAX none [{ sys := .err 11, cancel := true }, { sys := .got 7 }] { w := { async := false } }).map fun (r, t) => (r, t.w.errno)) = some (.ret (-1), sysECANCELED) := by
  decide +kernel

end Neco.Net
