import Verif.Proof.Net4

/-! # C62-C64: dialing, serving, accepting and connecting

`S` has what the call has opened and allocated; a call starts with nothing: `{ w := w }`. -/

namespace Neco.Net
open Neco.Err Neco.Io

theorem finish_nothing {g : Res → W → Res × W} {r : Res} {s : S} (h : s.fds = [] ∧ s.mem = [] ∧ s.hs = [] ∧ s.fault = false) : Nothing (finish g r s).2 := by
  unfold finish
  dsimp only
  split
  · rw [h.2.2.1]; exact ⟨h.1, h.2.1, h.2.2.2⟩
  · exact ⟨h.1, h.2.1, h.2.2.2⟩

theorem guardE_ret (n : Int) (w : W) : (guardE (.ret n) w).1 = .ret n := rfl
theorem guardA_fd (n : Nat) (w : W) : (guardA (.ret n) w).1 = .ret n := by
  unfold guardA asyncErrorGuard errorGuard
  simp [show ¬ ((n : Int) < 0) by omega, show (0 : Int) ≠ CANCELED by decide]
theorem guardA_neg {n m : Int} {w : W} (h : (guardA (.ret n) w).1 = .ret m) : m = n := by
  have := guardA_ret h; cases this; rfl

theorem finishE_ret (n : Int) (s : S) : (finish guardE (.ret n) s).1 = .ret n ∧ (finish guardE (.ret n) s).2 = { s with w := (guardE (.ret n) s.w).2 } := ⟨rfl, rfl⟩

/-- what is left after the end of the call -/
theorem dialed_finish {l : List Addr} {r : Res} {t : S} (h : Dialed l r t) :
    (∃ (n : Nat) (b : Addr) (post : List Addr), (finish guardE r t).1 = .ret n ∧ Only (finish guardE r t).2 n ⟨true, .connected b⟩ ∧ l = (finish guardE r t).2.tried ++ post ∧ (finish guardE r t).2.tried.getLast? = some b) ∨
    (∃ n : Int, n < 0 ∧ (finish guardE r t).1 = .ret n ∧ Nothing (finish guardE r t).2 ∧ ((finish guardE r t).2.tried = [] ∨ (finish guardE r t).2.tried = l)) ∨
    ((finish guardE r t).1 = .exit ∧ Nothing (finish guardE r t).2) := by
  cases h with
  | ok n b post hr hl hb hf hm hh hq =>
    subst hr
    exact .inl ⟨n, b, post, rfl, ⟨by rw [Int.toNat_natCast]; exact hf, by omega, hm, hq⟩, hl, hb⟩
  | fail n hn hr hl hf hm hh hq =>
    subst hr
    exact .inr (.inl ⟨n, hn, rfl, finish_nothing ⟨hf, hm, hh, hq⟩, hl⟩)
  | exit hr hu =>
    subst hr
    exact .inr (.inr ⟨rfl, hu _ rfl rfl rfl⟩)

theorem dial_cases {network : String} {address : List UInt8} {dl : Int} {x : Dial} {w : W} {t : S} {r : Res}
    (h : dial true (some network) (some address) dl x { w := w } = some (r, t)) :
    ∃ r0 t0, Dialed (targets network address x.look) r0 t0 ∧ (r, t) = finish guardE r0 t0 := by
  unfold dial at h
  simp only [Bool.not_true, Bool.false_eq_true, ↓reduceIte] at h
  rw [Option.map_eq_some_iff] at h
  obtain ⟨⟨r0, t0⟩, h1, h2⟩ := h
  refine ⟨r0, t0, ?_, h2.symm⟩
  unfold targets
  by_cases hu : network = "unix"
  · subst hu
    simp only [show ("unix" : String) ≠ "tcp" by decide, show ("unix" : String) ≠ "tcp4" by decide, show ("unix" : String) ≠ "tcp6" by decide, ↓reduceIte] at h1
    rw [if_pos rfl]
    exact dialUnix_spec h1
  · rw [if_neg hu]
    split at h1
    · exact dialTcp_spec h1
    · split at h1
      · exact dialTcp_spec h1
      · split at h1
        · exact dialTcp_spec h1
        · cases h1
          exact .fail _ (by decide) rfl (.inl rfl) rfl rfl rfl rfl

/-- A `neco_dial` that returns a descriptor has connected it to the address asked for (the path, or one of the addresses the name has), it is
non-blocking, and nothing else is left of the call: no other descriptor, no memory.  The addresses were tried in their order, up to the one that worked. -/
theorem C62_ok {network : String} {address : List UInt8} {dl : Int} {x : Dial} {w : W} {t : S} {n : Int}
    (h : dial true (some network) (some address) dl x { w := w } = some (.ret n, t)) (hn : 0 ≤ n) :
    ∃ b ∈ targets network address x.look, Only t n ⟨true, .connected b⟩ ∧ t.tried <+: targets network address x.look ∧ t.tried.getLast? = some b := by
  obtain ⟨r0, t0, h1, h2⟩ := dial_cases h
  have e1 : (finish guardE r0 t0).1 = .ret n := by rw [← h2]
  have e2 : (finish guardE r0 t0).2 = t := by rw [← h2]
  rcases dialed_finish h1 with ⟨m, b, post, g1, g2, g3, g4⟩ | ⟨m, g1, g2, _⟩ | ⟨g1, _⟩
  · rw [e1] at g1
    cases g1
    rw [e2] at g2 g3 g4
    refine ⟨b, ?_, g2, ⟨post, g3.symm⟩, g4⟩
    rw [g3]
    exact List.mem_append_left _ (List.mem_of_getLast? g4)
  · rw [e1] at g2; cases g2; omega
  · rw [e1] at g1; cases g1

/-- A `neco_dial` that returns an error, or that does not return because its coroutine is canceled, leaves nothing: every descriptor it opened is
closed (once), all memory is freed (once).  An error is reported only when all addresses were tried, or none could be. -/
theorem C62_fail {network : String} {address : List UInt8} {dl : Int} {x : Dial} {w : W} {t : S} {r : Res}
    (h : dial true (some network) (some address) dl x { w := w } = some (r, t)) (hr : ∀ n, r = .ret n → n < 0) :
    Nothing t ∧ (r ≠ .exit → t.tried = [] ∨ t.tried = targets network address x.look) := by
  obtain ⟨r0, t0, h1, h2⟩ := dial_cases h
  have e1 : (finish guardE r0 t0).1 = r := by rw [← h2]
  have e2 : (finish guardE r0 t0).2 = t := by rw [← h2]
  rcases dialed_finish h1 with ⟨m, b, post, g1, g2, g3, g4⟩ | ⟨m, g1, g2, g3, g4⟩ | ⟨g1, g2⟩
  · rw [e1] at g1
    have := hr m g1
    omega
  · rw [e2] at g3 g4; exact ⟨g3, fun _ => g4⟩
  · rw [e2] at g2; rw [e1] at g1; exact ⟨g2, fun hne => absurd g1 hne⟩

theorem asked {network : String} {address : List UInt8} {vers : Nat} {t : S} (hv : vers = family network) (hn : network = "tcp6" ↔ vers = 10)
    (h : ∃ pre port host, address = pre ++ 58 :: port ∧ 58 ∉ port ∧ Addr.Stripped pre host ∧ t.query = some (vhost host vers, port, vers)) :
    ∃ q, t.query = some q ∧ Asked network address q := by
  obtain ⟨pre, port, host, h1, h2, h3, h4⟩ := h
  refine ⟨_, h4, pre, port, host, h1, h2, h3, ?_⟩
  rw [← hv]
  congr 1
  unfold vhost
  by_cases e : host = []
  · simp only [e, ↓reduceIte, ne_eq, not_true_eq_false, hn]
  · simp only [e, ↓reduceIte, ne_eq, not_false_eq_true]

/-- A dial to a TCP address asks the resolver for the right host, port and family, or reports a bad address or lack of memory without trying anything. -/
theorem C62_query {network : String} {address : List UInt8} {dl : Int} {x : Dial} {w : W} {t : S} {r : Res}
    (h : dial true (some network) (some address) dl x { w := w } = some (r, t)) (hn : network = "tcp" ∨ network = "tcp4" ∨ network = "tcp6") :
    (∃ q, t.query = some q ∧ Asked network address q) ∨ (t.query = none ∧ (r = .ret INVAL ∨ r = .ret NOMEM)) := by
  unfold dial at h
  rw [Option.map_eq_some_iff] at h
  obtain ⟨⟨r0, t0⟩, h1, h2⟩ := h
  have h2 : finish guardE r0 t0 = (r, t) := h2
  have e1 : (finish guardE r0 t0).1 = r := by rw [h2]
  have e2 : (finish guardE r0 t0).2.query = t0.query := finish_query _ _ _
  have e3 : (finish guardE r0 t0).2 = t := by rw [h2]
  rw [e3] at e2
  have key : ∀ {vers : Nat}, dialTcp address vers dl x { w := w } = some (r0, t0) → vers = family network → (network = "tcp6" ↔ vers = 10) →
      (∃ q, t.query = some q ∧ Asked network address q) ∨ (t.query = none ∧ (r = .ret INVAL ∨ r = .ret NOMEM)) := by
    intro vers g hv hn
    rcases dialTcp_query g with ⟨g1, g2⟩ | g1
    · refine .inr ⟨by rw [e2, g1], ?_⟩
      rcases g2 with rfl | rfl
      · exact .inl e1.symm
      · exact .inr e1.symm
    · rw [← e2] at g1
      exact .inl (asked hv hn g1)
  simp only [Bool.not_true, Bool.false_eq_true, ↓reduceIte] at h1
  rcases hn with rfl | rfl | rfl
  · exact key h1 (by decide) (by decide)
  · exact key h1 (by decide) (by decide)
  · exact key h1 (by decide) (by decide)

/-- Wrong arguments, or no coroutine: an error, nothing happens. -/
theorem C62_args {co : Bool} {network : Option String} {address : Option (List UInt8)} {dl : Int} {x : Dial} {w : W} {t : S} {r : Res}
    (h : dial co network address dl x { w := w } = some (r, t)) (hbad : co = false ∨ network = none ∨ address = none ∨ (∀ n, network = some n → n ≠ "tcp" ∧ n ≠ "tcp4" ∧ n ≠ "tcp6" ∧ n ≠ "unix")) :
    (r = .ret PERM ∨ r = .ret INVAL) ∧ (co = false → r = .ret PERM) ∧ Nothing t ∧ t.tried = [] ∧ t.query = none := by
  unfold dial at h
  rw [Option.map_eq_some_iff] at h
  obtain ⟨⟨r0, t0⟩, h1, h2⟩ := h
  cases co with
  | false =>
    simp only [Bool.not_false, ↓reduceIte, Option.some.injEq, Prod.mk.injEq] at h1
    obtain ⟨rfl, rfl⟩ := h1
    cases h2
    exact ⟨.inl rfl, fun _ => rfl, ⟨rfl, rfl, rfl⟩, rfl, rfl⟩
  | true =>
    simp only [Bool.not_true, Bool.false_eq_true, ↓reduceIte] at h1
    have : r0 = .ret INVAL ∧ t0 = { w := w } := by
      rcases hbad with hb | hb | hb | hb
      · cases hb
      · subst hb; simp only [Option.some.injEq, Prod.mk.injEq] at h1; exact ⟨h1.1.symm, h1.2.symm⟩
      · subst hb; cases network <;> (simp only [Option.some.injEq, Prod.mk.injEq] at h1; exact ⟨h1.1.symm, h1.2.symm⟩)
      · cases network with
        | none => simp only [Option.some.injEq, Prod.mk.injEq] at h1; exact ⟨h1.1.symm, h1.2.symm⟩
        | some n =>
          obtain ⟨b1, b2, b3, b4⟩ := hb n rfl
          cases address with
          | none => simp only [Option.some.injEq, Prod.mk.injEq] at h1; exact ⟨h1.1.symm, h1.2.symm⟩
          | some a => simp only [b1, b2, b3, b4, ↓reduceIte, Option.some.injEq, Prod.mk.injEq] at h1; exact ⟨h1.1.symm, h1.2.symm⟩
    obtain ⟨rfl, rfl⟩ := this
    cases h2
    exact ⟨.inr rfl, by simp, ⟨rfl, rfl, rfl⟩, rfl, rfl⟩

/-! ## serving -/

theorem served_finish {a : Addr → Prop} {r : Res} {t : S} (h : Served a r t) :
    (∃ (n : Nat) (b : Addr), a b ∧ (finish guardA r t).1 = .ret n ∧ Only (finish guardA r t).2 n ⟨true, .listening b⟩) ∨
    ((∀ n, (finish guardA r t).1 = .ret n → n < 0) ∧ Nothing (finish guardA r t).2) := by
  cases h with
  | ok n b hb hr hf hm hh hq =>
    subst hr
    have e : finish guardA (.ret n) t = (.ret n, { t with w := (guardA (.ret n) t.w).2 }) := by
      unfold finish
      have := guardA_fd n t.w
      cases hg : guardA (.ret n) t.w with
      | mk r w => rw [hg] at this; simp only at this; subst this; rfl
    exact .inl ⟨n, b, hb, by rw [e], by rw [e]; exact ⟨by rw [Int.toNat_natCast]; exact hf, by omega, hm, hq⟩⟩
  | fail n hn hr hf hm hh hq =>
    subst hr
    refine .inr ⟨fun m hm' => ?_, finish_nothing ⟨hf, hm, hh, hq⟩⟩
    unfold finish at hm'
    dsimp only at hm'
    split at hm'
    · cases hm'
    · rename_i hr
      have := guardA_neg hm'
      omega
  | exit hr hu =>
    subst hr
    exact .inr ⟨fun m hm => (nomatch hm), hu _ rfl rfl rfl⟩

theorem serve_cases {network : String} {address : List UInt8} {x : Serve} {w : W} {t : S} {r : Res}
    (h : serve true (some network) (some address) x { w := w } = some (r, t)) :
    ∃ r0 t0, Served (fun b => if network = "unix" then b = .unix (address.take 107) else (targets network address x.look).head? = some b) r0 t0 ∧ (r, t) = finish guardA r0 t0 := by
  unfold serve at h
  simp only [Bool.not_true, Bool.false_eq_true, ↓reduceIte] at h
  rw [Option.map_eq_some_iff] at h
  obtain ⟨⟨r0, t0⟩, h1, h2⟩ := h
  refine ⟨r0, t0, ?_, h2.symm⟩
  by_cases hu : network = "unix"
  · subst hu
    simp only [show ("unix" : String) ≠ "tcp" by decide, show ("unix" : String) ≠ "tcp4" by decide, show ("unix" : String) ≠ "tcp6" by decide, ↓reduceIte] at h1
    simp only [↓reduceIte]
    exact listenUnix_spec h1
  · simp only [if_neg hu] at h1 ⊢
    have key : ∀ v, listenTcp address v x { w := w } = some (r0, t0) → Served (fun b => (targets network address x.look).head? = some b) r0 t0 := by
      intro v hv
      cases listenTcp_spec hv with
      | ok n b hb hr hf hm hh hq =>
        obtain ⟨m, l, hx⟩ := hb
        exact .ok n b (by unfold targets; rw [if_neg hu, hx]; rfl) hr hf hm hh hq
      | fail n hn hr hf hm hh hq => exact .fail n hn hr hf hm hh hq
      | exit hr hu => exact .exit hr hu
    split at h1
    · exact key _ h1
    · split at h1
      · exact key _ h1
      · split at h1
        · exact key _ h1
        · cases h1
          exact .fail _ (by decide) rfl rfl rfl rfl rfl

/-- A `neco_serve` on a TCP address that returns a descriptor listens at the first address the name has, non-blocking, and leaves nothing else. -/
theorem C63_ok {network : String} {address : List UInt8} {x : Serve} {w : W} {t : S} {n : Int}
    (h : serve true (some network) (some address) x { w := w } = some (.ret n, t)) (hn : 0 ≤ n) (hu : network ≠ "unix") :
    ∃ b, (targets network address x.look).head? = some b ∧ Only t n ⟨true, .listening b⟩ := by
  obtain ⟨r0, t0, h1, h2⟩ := serve_cases h
  have e1 : (finish guardA r0 t0).1 = .ret n := by rw [← h2]
  have e2 : (finish guardA r0 t0).2 = t := by rw [← h2]
  rcases served_finish h1 with ⟨m, b, g1, g2, g3⟩ | ⟨g1, _⟩
  · rw [e1] at g2; cases g2
    rw [e2] at g3
    rw [if_neg hu] at g1
    exact ⟨b, g1, g3⟩
  · have := g1 n e1; omega

/-- On a unix address it listens at that path, if the path has at most 107 bytes. -/
theorem C63_unix_partial {address : List UInt8} {x : Serve} {w : W} {t : S} {n : Int}
    (h : serve true (some "unix") (some address) x { w := w } = some (.ret n, t)) (hn : 0 ≤ n) (hl : address.length ≤ 107) :
    Only t n ⟨true, .listening (.unix address)⟩ := by
  obtain ⟨r0, t0, h1, h2⟩ := serve_cases h
  have e1 : (finish guardA r0 t0).1 = .ret n := by rw [← h2]
  have e2 : (finish guardA r0 t0).2 = t := by rw [← h2]
  rcases served_finish h1 with ⟨m, b, g1, g2, g3⟩ | ⟨g1, _⟩
  · rw [e1] at g2; cases g2
    rw [e2] at g3
    rw [if_pos rfl, List.take_of_length_le (by omega)] at g1
    subst g1; exact g3
  · have := g1 n e1; omega

/-- With a longer path it listens at a different one, without an error; `neco_dial` refuses such a path. -/
theorem C63_unix_not_general : ¬ ∀ (address : List UInt8) (x : Serve) (w : W) (t : S) (n : Int),
    serve true (some "unix") (some address) x { w := w } = some (.ret n, t) → 0 ≤ n → Only t n ⟨true, .listening (.unix address)⟩ := by
  intro h
  have := h (List.replicate 108 47) { look := { host := none, res := .exit }, sock := .got 3 } {} _ 3 rfl (by decide)
  exact absurd this.1 (by decide +kernel)

/-- A `neco_serve` that returns an error, or that does not return because its coroutine is canceled, leaves nothing. -/
theorem C63_fail {network : String} {address : List UInt8} {x : Serve} {w : W} {t : S} {r : Res}
    (h : serve true (some network) (some address) x { w := w } = some (r, t)) (hr : ∀ n, r = .ret n → n < 0) : Nothing t := by
  obtain ⟨r0, t0, h1, h2⟩ := serve_cases h
  have e1 : (finish guardA r0 t0).1 = r := by rw [← h2]
  have e2 : (finish guardA r0 t0).2 = t := by rw [← h2]
  rcases served_finish h1 with ⟨m, b, g1, g2, g3⟩ | ⟨_, g2⟩
  · rw [e1] at g2
    have := hr m g2
    omega
  · rw [e2] at g2; exact g2

/-- A serve on a TCP address asks the resolver for the right host, port and family, or reports a bad address or lack of memory. -/
theorem C63_query {network : String} {address : List UInt8} {x : Serve} {w : W} {t : S} {r : Res}
    (h : serve true (some network) (some address) x { w := w } = some (r, t)) (hn : network = "tcp" ∨ network = "tcp4" ∨ network = "tcp6") :
    (∃ q, t.query = some q ∧ Asked network address q) ∨ (t.query = none ∧ (r = .exit ∨ r = .ret INVAL ∨ r = .ret NOMEM)) := by
  unfold serve at h
  rw [Option.map_eq_some_iff] at h
  obtain ⟨⟨r0, t0⟩, h1, h2⟩ := h
  have h2 : finish guardA r0 t0 = (r, t) := h2
  have e1 : (finish guardA r0 t0).1 = r := by rw [h2]
  have e2 : (finish guardA r0 t0).2.query = t0.query := finish_query _ _ _
  have e3 : (finish guardA r0 t0).2 = t := by rw [h2]
  rw [e3] at e2
  have key : ∀ {vers : Nat}, listenTcp address vers x { w := w } = some (r0, t0) → vers = family network → (network = "tcp6" ↔ vers = 10) →
      (∃ q, t.query = some q ∧ Asked network address q) ∨ (t.query = none ∧ (r = .exit ∨ r = .ret INVAL ∨ r = .ret NOMEM)) := by
    intro vers g hv hn
    rcases listenTcp_query g with ⟨g1, g2⟩ | g1
    · refine .inr ⟨by rw [e2, g1], ?_⟩
      rw [← e1]
      unfold finish
      dsimp only
      split
      · exact .inl rfl
      · rename_i q hq
        cases hg : (guardA r0 t0.w).1 with
        | exit => exact .inl rfl
        | ret m =>
          have := guardA_ret hg
          rw [this] at g2
          exact .inr g2
    · rw [← e2] at g1
      exact .inl (asked hv hn g1)
  simp only [Bool.not_true, Bool.false_eq_true, ↓reduceIte] at h1
  rcases hn with rfl | rfl | rfl
  · exact key h1 (by decide) (by decide)
  · exact key h1 (by decide) (by decide)
  · exact key h1 (by decide) (by decide)

/-- A `neco_accept` that returns a descriptor returns one that `accept` made, non-blocking; otherwise it leaves nothing. -/
theorem C63_accept {co : Bool} {dl : Int} {nb : Option Int} {ts : List (Turn SysFd)} {w : W} {t : S} {r : Res} (h : accept co dl nb ts { w := w } = some (r, t)) :
    (∃ n, r = .ret n ∧ Only t n ⟨true, .accepted⟩) ∨ ((∀ n, r = .ret n → n = -1) ∧ Nothing t) := by
  unfold accept at h
  rw [Option.map_eq_some_iff] at h
  obtain ⟨⟨r0, t0⟩, h1, h2⟩ := h
  have ha : Accepted r0 t0 := by
    cases co with
    | false =>
      simp only [Bool.not_false, ↓reduceIte, Option.some.injEq, Prod.mk.injEq] at h1
      obtain ⟨rfl, rfl⟩ := h1
      exact .fail (.inl rfl) rfl rfl rfl rfl
    | true =>
      simp only [Bool.not_true, Bool.false_eq_true, ↓reduceIte] at h1
      exact acceptDl_spec h1 rfl rfl rfl rfl
  simp only at h2
  cases ha with
  | ok n hr hf hm hh hq =>
    subst hr
    have hs : Served (fun _ => True) (.ret n) { t0 with fds := [(n, ⟨true, .listening (.ip 0)⟩)] } := .ok n (.ip 0) trivial rfl rfl hm hh hq
    have e : finish guardA (.ret n) t0 = (.ret n, { t0 with w := (guardA (.ret n) t0.w).2 }) := by
      unfold finish
      have := guardA_fd n t0.w
      cases hg : guardA (.ret n) t0.w with
      | mk r w => rw [hg] at this; simp only at this; subst this; rfl
    rw [e] at h2
    cases h2
    exact .inl ⟨n, rfl, by rw [Int.toNat_natCast]; exact hf, by omega, hm, hq⟩
  | fail hr hf hm hh hq =>
    right
    have hN := finish_nothing (g := guardA) (r := r0) (s := t0) ⟨hf, hm, hh, hq⟩
    rw [h2] at hN
    refine ⟨fun n hn => ?_, hN⟩
    subst hn
    rcases hr with rfl | rfl
    · unfold finish at h2
      dsimp only at h2
      split at h2
      · cases h2
      · simp only [Prod.mk.injEq] at h2
        exact guardA_neg h2.1
    · cases h2

/-- `neco_accept` reports a timeout or a cancelation only if there is one (or if `accept` itself failed like that). -/
theorem C63_accept_told {dl : Int} {ts : List (Turn SysFd)} {w : W} {t : S} (h : accept true dl none ts { w := w } = some (.ret (-1), t)) :
    Told (fun x e => x = .err e) dl ts w t.w.errno := by
  unfold accept at h
  rw [Option.map_eq_some_iff] at h
  obtain ⟨⟨r0, t0⟩, h1, h2⟩ := h
  simp only [Bool.not_true, Bool.false_eq_true, ↓reduceIte] at h1
  simp only at h2
  unfold finish at h2
  dsimp only at h2
  split at h2
  · cases h2
  · simp only [Prod.mk.injEq] at h2
    obtain ⟨g1, rfl⟩ := h2
    have := guardA_ret g1
    subst this
    exact acceptDl_told h1 rfl

/-! ## connecting -/

/-- A `neco_connect` that returns `NECO_OK` on a socket that was not connected has connected it to the given address. -/
theorem C64_ok {a : Addr} {dl : Int} {ts : List (Turn SysC)} {k k' : Sock} {w w' : W} (h : connect a dl ts k w = some (.ret 0, k', w'))
    (hk : k.st = .fresh ∨ ∃ b, k.st = .bound b) : k'.st = .connected a := by
  obtain ⟨_, _, h1⟩ := connect_spec h (by rcases hk with hk | ⟨b, hk⟩ <;> rw [hk] <;> trivial)
  rcases h1 0 rfl with ⟨_, h2⟩ | h2
  · exact h2
  · cases h2

/-- Its results are `NECO_OK` and -1. -/
theorem C64_results {a : Addr} {dl : Int} {ts : List (Turn SysC)} {k k' : Sock} {w w' : W} {n : Int} (h : connect a dl ts k w = some (.ret n, k', w'))
    (hk : k.st = .fresh ∨ ∃ b, k.st = .bound b) : n = 0 ∨ n = -1 := by
  obtain ⟨_, _, h1⟩ := connect_spec h (by rcases hk with hk | ⟨b, hk⟩ <;> rw [hk] <;> trivial)
  rcases h1 n rfl with ⟨h2, _⟩ | h2
  · exact .inl h2
  · exact .inr h2

/-- On a socket that listens, or that `accept` gave, `neco_connect` fails and changes nothing. -/
theorem C64_in_use {a : Addr} {dl : Int} {ts : List (Turn SysC)} {k k' : Sock} {w w' : W} {n : Int} (h : connect a dl ts k w = some (.ret n, k', w'))
    (hk : k.st = .accepted ∨ ∃ b, k.st = .listening b) : n = -1 ∧ k' = k := by
  unfold connect at h
  rw [Option.map_eq_some_iff] at h
  obtain ⟨⟨r0, k0, w0⟩, h1, h2⟩ := h
  simp only [Prod.mk.injEq] at h2
  obtain ⟨h3, rfl, rfl⟩ := h2
  have := guardA_ret h3
  subst this
  obtain ⟨nb, st⟩ := k
  cases ts with
  | nil => simp [connectDl] at h1
  | cons t ts =>
    unfold connectDl at h1
    dsimp only at h1
    split at h1
    · cases h1; exact ⟨rfl, rfl⟩
    · obtain ⟨now, cancel, expire, ⟨b, r⟩⟩ := t
      simp only at h1 hk
      rcases hk with rfl | ⟨c, rfl⟩ <;> cases b <;> simp only [bg, Option.bind_some, Option.bind_none, reduceCtorEq] at h1 <;>
        cases r <;> simp only [kconnect, reduceCtorEq] at h1 <;> (cases h1; exact ⟨rfl, rfl⟩)

theorem connect_ret {a : Addr} {dl : Int} {ts : List (Turn SysC)} {k k' : Sock} {w w' : W} {n : Int} (h : connect a dl ts k w = some (.ret n, k', w')) :
    ∃ w0, connectDl a dl false ts k w = some (.ret n, k', w0) ∧ w'.errno = w0.errno ∧ w'.canceled = w0.canceled := by
  unfold connect at h
  rw [Option.map_eq_some_iff] at h
  obtain ⟨⟨r0, k0, w0⟩, h1, h2⟩ := h
  simp only [Prod.mk.injEq] at h2
  obtain ⟨h3, rfl, rfl⟩ := h2
  have := guardA_ret h3
  subst this
  exact ⟨w0, h1, rfl, rfl⟩

/-- It reports a timeout or a cancelation only if there is one (or if `connect` itself failed like that). -/
theorem C64_told {a : Addr} {dl : Int} {ts : List (Turn SysC)} {k k' : Sock} {w w' : W} (h : connect a dl ts k w = some (.ret (-1), k', w')) :
    Told (fun x e => x.r = .err e) dl ts w w'.errno := by
  obtain ⟨w0, h1, h2, _⟩ := connect_ret h
  rw [h2]
  exact connectDl_told h1

/-- A `neco_connect` that returns an error other than a timeout or a cancelation leaves the socket unconnected, and no attempt to connect goes on: if
`connect` is not interrupted and never answers that it is still at work after the socket was reported ready. -/
theorem C64_error_partial {a : Addr} {dl : Int} {ts : List (Turn SysC)} {k k' : Sock} {w w' : W} (h : connect a dl ts k w = some (.ret (-1), k', w'))
    (hk : k.st = .fresh ∨ ∃ b, k.st = .bound b) (hts : ∀ t ∈ ts, (∀ b, t.sys.r ≠ .intr b) ∧ t.sys.r ≠ .already)
    (h1 : w'.errno ≠ sysECANCELED) (h2 : w'.errno ≠ sysETIMEDOUT) : ∀ b, k'.st ≠ .connected b ∧ k'.st ≠ .connecting b := by
  obtain ⟨w0, g1, g2, _⟩ := connect_ret h
  rw [g2] at h1 h2
  rcases connectDl_idle g1 hts (fun _ => by rcases hk with hk | ⟨b, hk⟩ <;> rw [hk] <;> trivial) with g | g | g
  · exact absurd g h1
  · exact absurd g h2
  · intro b
    constructor <;> (intro e; rw [e] at g; exact g)

/-- An undisturbed `neco_connect` tells how the attempt ended: refused at once, refused later, or connected, and leaves the socket like that. -/
theorem C64_tells {a : Addr} {k : Sock} {w : W} {e : Int} (he : other e) (hx : e ≠ sysECANCELED) (hk : k.st = .fresh ∨ ∃ b, k.st = .bound b)
    (hc : w.canceled = false) (hd : w.deadlined = false) :
    (∃ w', connect a MAX [{ sys := { r := .err e } }] k w = some (.ret (-1), k, w') ∧ w'.errno = e) ∧
    (∃ w', connect a MAX [{ sys := { r := .inprogress } }, { sys := { bg := .down e, r := .err e } }] k w = some (.ret (-1), { k with st := .fresh }, w') ∧ w'.errno = e) ∧
    (∃ w', connect a MAX [{ sys := { r := .inprogress } }, { sys := { bg := .up, r := .isconn } }] k w = some (.ret 0, { k with st := .connected a }, w')) := by
  obtain ⟨nb, st⟩ := k
  replace hk : st = .fresh ∨ ∃ b, st = .bound b := hk
  obtain ⟨canceled, deadlined, async, errno, lasterr, inp, out, torn⟩ := w
  cases hc; cases hd
  have hg : ∀ (w : W), w.errno = e → (guardA (.ret (-1)) w).1 = .ret (-1) := by
    intro w hw
    cases h : (guardA (.ret (-1)) w).1 with
    | exit =>
      rcases (guardA_exit h).2 with ⟨_, g⟩ | g
      · exact absurd (hw.symm.trans g) hx
      · exact absurd g (by decide)
    | ret n => rw [guardA_ret h]
  rcases hk with rfl | ⟨b, rfl⟩ <;> refine ⟨?_, ?_, ?_⟩ <;> unfold connect
  all_goals
    simp [connectDl, checkdl, bg, kconnect, he, pass, Cr.errno, OK, hg, guardA_nonneg]
  all_goals exact (guardA_w _ _).2.2.2.1

/-- When `connect` is interrupted after the attempt to connect has begun, `neco_connect` calls it again and takes its answer "already at work" (or
"already connected") for an error, while the socket gets connected. -/
theorem C64_error_not_general : ¬ ∀ (a : Addr) (dl : Int) (ts : List (Turn SysC)) (k k' : Sock) (w w' : W), connect a dl ts k w = some (.ret (-1), k', w') →
    k.st = .fresh → w'.errno ≠ sysECANCELED → w'.errno ≠ sysETIMEDOUT → ∀ b, k'.st ≠ .connected b := by
  intro h
  exact h (.ip 1) MAX [{ sys := { r := .intr true } }, { sys := { bg := .up, r := .isconn } }] { nonblock := true } { nonblock := true, st := .connected (.ip 1) } {}
    _ rfl rfl (by decide) (by decide) (.ip 1) rfl

/-- A canceled coroutine that calls `neco_dial`, or is canceled during the call, gets `NECO_CANCELED`, or is terminated, or is still canceled: this is
false with two addresses and the cancel type inline. -/
theorem C62_cancel_not_general : ¬ ∀ (address : List UInt8) (x : Dial) (w : W) (r : Res) (t : S), dial true (some "tcp") (some address) MAX x { w := w } = some (r, t) →
    (∃ a ∈ x.atts, ∃ u ∈ a.ts, u.cancel = true) → r = .exit ∨ r = .ret CANCELED ∨ t.w.canceled = true := by
  intro h
  have := h [97, 58, 49] { look := { host := some 1, res := .ok 2 [.ip 1, .ip 2] }, atts := [
    { sock := .got 3, ts := [{ sys := { r := .inprogress }, cancel := true }, { sys := { r := .already } }] },
    { sock := .got 3, ts := [{ sys := { r := .ok } }] }] } { async := false } _ _ rfl ⟨_, by simp; left; rfl, _, by simp; left; rfl, rfl⟩
  revert this
  decide +kernel

/-- A coroutine that is canceled while it waits in `neco_connect` is terminated, or the call returns with `ECANCELED`. -/
theorem C64_cancel {a : Addr} {dl : Int} {pre post : List (Turn SysC)} {t0 : Turn SysC} {k k' : Sock} {w w' : W} {r : Res}
    (hp : connect a dl (pre ++ [t0]) k w = none) (h : connect a dl (pre ++ t0 :: post) k w = some (r, k', w'))
    (h0 : t0.cancel = true) (hr : t0.sys.r = .inprogress) : r = .exit ∨ (r = .ret (-1) ∧ w'.errno = sysECANCELED) := by
  unfold connect at h hp
  rw [Option.map_eq_none_iff] at hp
  rw [Option.map_eq_some_iff] at h
  obtain ⟨⟨r0, k0, w0⟩, h1, h2⟩ := h
  simp only [Prod.mk.injEq] at h2
  obtain ⟨rfl, _, rfl⟩ := h2
  rcases connectDl_cancel h0 hr hp h1 with rfl | ⟨rfl, e⟩
  · exact .inl rfl
  · cases hg : (guardA (.ret (-1)) w0).1 with
    | exit => exact .inl rfl
    | ret m =>
      have := guardA_ret hg
      cases this
      exact .inr ⟨rfl, e⟩

/-! ## examples -/

/-- the second address works, after a wait -/
example : ((dial true (some "tcp") (some "a:80".toUTF8.toList) MAX { look := { host := some 1, res := .ok 2 [.ip 1, .ip 2] }, atts := [
    { sock := .got 3, ts := [{ sys := { r := .inprogress } }, { sys := { bg := .down sysECONNREFUSED, r := .err sysECONNREFUSED } }] },
    { sock := .got 4, ts := [{ sys := { r := .inprogress } }, { sys := { bg := .up, r := .isconn } }] }] } {}).map fun (r, t) => (r, t.fds, t.mem, t.tried)) =
    some (.ret 4, [(4, ⟨true, .connected (.ip 2)⟩)], [], [.ip 1, .ip 2]) := by decide +kernel
/-- canceled while it waits: the descriptor is closed, the addresses are freed -/
example : ((dial true (some "tcp") (some "a:80".toUTF8.toList) MAX { look := { host := some 1, res := .ok 2 [.ip 1] }, atts := [
    { sock := .got 3, ts := [{ sys := { r := .inprogress }, cancel := true }] }] } {}).map fun (r, t) => (r, t.fds, t.mem, t.fault)) =
    some (.exit, [], [], false) := by decide +kernel
/-- all addresses fail -/
example : ((dial true (some "tcp4") (some "a:80".toUTF8.toList) MAX { look := { host := some 1, res := .ok 2 [.ip 1, .ip 2] }, atts := [
    { sock := .err 24, ts := [] }, { sock := .got 4, nb := some 22, ts := [] }] } {}).map fun (r, t) => (r, t.fds, t.mem, t.fault)) =
    some (.ret INVAL, [], [], false) := by decide +kernel
example : ((serve true (some "tcp") (some ":80".toUTF8.toList) { look := { host := some 1, res := .ok 2 [.ip 1, .ip 2] }, sock := .got 5 } {}).map fun (r, t) => (r, t.fds, t.mem)) =
    some (.ret 5, [(5, ⟨true, .listening (.ip 1)⟩)], []) := by decide +kernel
example : ((accept true 10 none [{ sys := .err 11 }, { sys := .got 7, now := 5 }] {}).map fun (r, t) => (r, t.fds)) = some (.ret 7, [(7, ⟨true, .accepted⟩)]) := by decide +kernel
example : ((accept true 10 none [{ sys := .err 11 }, { sys := .got 7, now := 15 }] {}).map fun (r, t) => (r, t.fds, t.w.errno)) = some (.ret (-1), [], sysETIMEDOUT) := by decide +kernel

end Neco.Net
