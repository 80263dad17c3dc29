import Verif.Proof.Pipe

/-! # C65: neco_pipe

`s` is any state that a call of `neco_pipe` can get into, with any schedule of the caller, its child and other processes. -/

namespace Neco.Pipe

/-- A `neco_pipe` that returns 0 has stored the two ends of one new connection, open, non-blocking and empty, and has left nothing else open;
if no other process knows the secret, and nobody cancels the child. -/
theorem C65_ok_partial {secret : List UInt8} {p : Int × Int} {en : Bool} {e : Int} {s : S} (hl : secret.length = 8) (h : Reach (init secret p en e) s)
    (hd : s.pa = .done) (hr : s.ret = 0) (hu : Unguessed s) (hk : s.killed = false) :
    Ends s s.pipefd.1 s.pipefd.2 ∧ (∀ x, s.fds x ≠ none → (x : Int) = s.pipefd.1 ∨ (x : Int) = s.pipefd.2) ∧ s.fault = false := by
  have i := Inv.reach hl h
  have hlast : s.pa.last := .inr hd
  obtain ⟨_, _, hch, h2, c, hf, hs, hdt⟩ := i.ok' hr hlast
  have hfar := i.far _ _ _ hf
  have hfor : (s.conns c).foreign = false := by
    cases hc : (s.conns c).foreign
    · rfl
    · exact absurd hs (hu c hfar.2.1 hc)
  have hsec := i.sec
  have hopen : (s.conns c).closed = false := by
    cases hc : (s.conns c).closed
    · rfl
    · rw [i.dead c hfar.2.1 hfor hc, hsec] at hs
      rw [← hs] at hl
      simp at hl
  rcases i.mine (.inr hr) c hfar.2.1 hfor hopen with ⟨_, _, g, _⟩ | ⟨_, g, _⟩ | ⟨_, g | ⟨g, _⟩ | ⟨_, _, g1, g2⟩⟩
  · rw [hch] at g; cases g
  · rw [hch] at g; cases g
  · rw [hk] at g; cases g
  · exact absurd ⟨hr, hlast⟩ g
  · have hft : s.fault = false := by
      cases hf : s.fault
      · rfl
      · have := (i.fault hf).2.1; omega
    refine ⟨⟨g1, by omega, ?_, c, g2, hf, hdt hfor⟩, ?_, hft⟩
    · intro he; rw [he, hf] at g2; cases g2
    · intro x hx
      cases hx' : s.fds x with
      | none => exact absurd hx' hx
      | some o =>
        obtain ⟨o, nb⟩ := o
        cases o with
        | listener =>
          obtain ⟨k1, _, k2 | k2⟩ := i.lis _ _ hx'
          · simp [Pa.open, hd] at k2
          · have := (i.lnz k2).2.1; omega
        | near d =>
          have k := i.near _ _ _ hx'
          rw [hch, hk, hft, hd] at k
          simp at k
          exact .inl k.2.2.2.2.2.2.symm
        | far d =>
          obtain ⟨_, _, k | ⟨_, _, k⟩⟩ := i.far _ _ _ hx'
          · rw [hd] at k; simp at k
          · exact .inr k.symm

/-- A `neco_pipe` that returns something else returns -1 and has left the descriptors of the user as they were. -/
theorem C65_fail {secret : List UInt8} {p : Int × Int} {en : Bool} {e : Int} {s : S} (hl : secret.length = 8) (h : Reach (init secret p en e) s)
    (hr : s.ret ≠ 0) : s.ret = -1 ∧ s.pipefd = p := by
  have i := Inv.reach hl h
  refine ⟨?_, i.same (fun g => hr g.1)⟩
  rcases i.ret with g | g
  · exact absurd g hr
  · exact g

/-- The caller's cancel state is disabled during the call, and afterwards is what it was. -/
theorem C65_cancelstate {secret : List UInt8} {p : Int × Int} {en : Bool} {e : Int} {s : S} (hl : secret.length = 8) (h : Reach (init secret p en e) s) :
    s.enabled = if s.pa = .done then en else false := by
  have i := (Inv.reach hl h).ena
  split
  · exact i.2 ‹_›
  · exact i.1 ‹_›

/-- During the call nothing is closed that is not open, and no variable is used that is gone. -/
theorem C65_safe_partial {secret : List UInt8} {p : Int × Int} {en : Bool} {e : Int} {s : S} (hl : secret.length = 8) (h : Reach (init secret p en e) s)
    (hd : s.pa ≠ .done ∨ s.ret = 0 ∨ s.ch ≠ .ended) : s.fault = false := by
  have i := Inv.reach hl h
  cases hf : s.fault
  · rfl
  · have := i.fault hf
    rcases hd with g | g | g
    · exact absurd this.1 g
    · omega
    · exact absurd this.2.2 g

/-- When a `neco_pipe` that fails returns, everything it opened is closed, if its child has ended by then, was not canceled, and the listening socket
is not descriptor 0. -/
theorem C65_clean_partial {secret : List UInt8} {p : Int × Int} {en : Bool} {e : Int} {s : S} (hl : secret.length = 8) (h : Reach (init secret p en e) s)
    (hd : s.pa = .done) (hr : s.ret ≠ 0) (ht : InTime s) (hk : s.killed = false) (hz : s.ln ≠ 0) : ∀ x, s.fds x = none := by
  have i := Inv.reach hl h
  intro x
  cases hx : s.fds x with
  | none => rfl
  | some o =>
    obtain ⟨o, nb⟩ := o
    cases o with
    | listener =>
      obtain ⟨_, _, k2 | k2⟩ := i.lis _ _ hx
      · simp [Pa.open, hd] at k2
      · exact absurd k2 hz
    | near d =>
      have k := i.near _ _ _ hx
      rcases ht.2 with g | g <;> rw [g, hk, ht.1, hd] at k <;> simp [hr] at k
    | far d =>
      obtain ⟨_, _, k | ⟨_, k, _⟩⟩ := i.far _ _ _ hx
      · rw [hd] at k; simp at k
      · exact absurd k hr

theorem runs_reach {s0 : S} : ∀ {l : List Ev} {s t : S}, Reach s0 s → runs s l = some t → Reach s0 t
  | [], s, t, h, e => by cases e; exact h
  | v :: l, s, t, h, e => by
    unfold runs at e
    cases hs : step s v with
    | none => rw [hs] at e; cases e
    | some u => rw [hs] at e; exact runs_reach (.step h hs) e

def sec : List UInt8 := [1, 2, 3, 4, 5, 6, 7, 8]

/-- all goes well, although another process connects first and sends something else: then the call fails cleanly -/
example : ((runs (init sec (9, 9) true 0) [.serveOk 3, .startOk, .dialOk 4, .sent 8, .written, .acceptOk 5, .readOk, .closeLn, .assign, .joined, .closeFds]).map
    fun s => (s.ret, s.pipefd, s.fds 3, s.fds 4, s.fds 5, s.enabled, s.fault)) =
    some (0, (4, 5), none, some ⟨.near 0, true⟩, some ⟨.far 0, true⟩, true, false) := rfl
example : ((runs (init sec (9, 9) true 0) [.serveOk 3, .startOk, .connect, .send 0 [1, 2], .dialOk 4, .sent 8, .written, .acceptOk 5, .assign, .readOk, .closeLn, .closeFds]).map
    fun s => (s.ret, s.pipefd, s.fds 3, s.fds 4, s.fds 5, s.fault)) =
    some (-1, (9, 9), none, none, none, false) := rfl

/-- a run that ends with `0`, and what is then true of it -/
theorem of_runs {p : Int × Int} (l : List Ev) (h : (runs (init sec p true 0) l).isSome = true) : ∃ s, Reach (init sec p true 0) s ∧ runs (init sec p true 0) l = some s := by
  cases e : runs (init sec p true 0) l with
  | none => rw [e] at h; cases h
  | some s => exact ⟨s, runs_reach .init e, rfl⟩

/-- how far the parent is -/
def Pa.place : Pa → Nat
  | .serve => 0 | .start => 1 | .accept => 2 | .read => 3 | .closeLn => 4 | .join => 5 | .closeFds => 6 | .done => 7

/-- how far the child is -/
def Ch.place : Ch → Nat
  | .none => 0 | .dial => 1 | .write _ _ => 2 | .assign _ => 3 | .ended => 4

/-- is it a step of the parent? -/
def Ev.parent : Ev → Bool
  | .serveOk _ | .serveErr _ | .startOk | .startErr _ | .acceptOk _ | .acceptErr _ | .readOk | .readErr _ | .closeLn | .joined | .closeFds => true
  | _ => false

/-- is it a step of the child that is not one of several writes? -/
def Ev.child : Ev → Bool
  | .dialOk _ | .dialErr _ _ | .written | .assign | .killed => true
  | _ => false

theorem close_ret (s : S) (fd : Int) : (close s fd).ret = s.ret := by unfold close; split <;> (try split) <;> rfl
theorem close_ch (s : S) (fd : Int) : (close s fd).ch = s.ch := by unfold close; split <;> (try split) <;> rfl

/-- However the calls that the parent makes end, it goes on; each step takes it closer to the end, so it makes seven at most; and so does the child.
Nothing but its own steps moves the parent or, once it is started, the child. -/
theorem C65_onward {s s' : S} {e : Ev} (h : step s e = some s') :
    (if e.parent then s.pa.place < s'.pa.place else s'.pa = s.pa) ∧
    (if e.child then s.ch.place < s'.ch.place else s.ch.place ≤ s'.ch.place ∨ (e = .startOk ∧ s'.ch = .dial)) := by
  cases e <;> simp only [step] at h <;> (repeat' split at h) <;> (try cases h) <;> simp_all [Ev.parent, Ev.child, Pa.place, Ch.place, close_ch, connect, send] <;>
    (try (repeat' split) <;> simp_all [Pa.place, Ch.place])

theorem started {s0 s : S} (h0 : s0.pa = .serve) (h : Reach s0 s) : s.pa = .accept ∨ s.pa = .read ∨ s.ret = 0 → s.ch ≠ .none ∨ s0.ret = 0 := by
  induction h with
  | init => rintro (g | g | g) <;> first | (rw [h0] at g; cases g) | exact .inr g
  | @step s s' e _ h ih =>
    have hc : s.ch ≠ .none → s'.ch ≠ .none := by
      intro g g'
      have := (C65_onward h).2
      rw [g'] at this
      cases hs : s.ch <;> rw [hs] at this g <;> first | exact absurd rfl g | (revert this; cases e <;> simp [Ev.child, Ch.place])
    intro g
    by_cases hb : s.pa = .accept ∨ s.pa = .read ∨ s.ret = 0
    · exact (ih hb).imp hc id
    · refine .inl ?_
      cases e <;> simp only [step] at h <;> (repeat' split at h) <;> (try cases h) <;> simp_all [close_ret, close_ch, connect, send]

/-- A `neco_pipe` can always end: whatever has happened, a few steps of the parent and the child complete the call. -/
theorem C65_returns {secret : List UInt8} {p : Int × Int} {en : Bool} {e : Int} {s : S} (hl : secret.length = 8) (h : Reach (init secret p en e) s) :
    ∃ l s', l.length ≤ 6 ∧ (∀ x ∈ l, x.parent || x.child) ∧ runs s l = some s' ∧ s'.pa = .done := by
  have i := Inv.reach hl h
  have hst := started (s0 := init secret p en e) rfl h
  have hz : (init secret p en e).ret ≠ 0 := by simp [init]
  -- from the closes
  have c6 : ∀ u : S, u.pa = .closeFds → ∃ u', runs u [.closeFds] = some u' ∧ u'.pa = .done := by
    intro u hu; exact ⟨_, by simp [runs, step, hu]; rfl, rfl⟩
  have c5 : ∀ u : S, u.pa = .join → u.ch ≠ .none → ∃ l u', l.length ≤ 4 ∧ (∀ x ∈ l, x.parent || x.child) ∧ runs u l = some u' ∧ u'.pa = .done := by
    intro u hu hc
    cases hch : u.ch with
    | none => exact absurd hch hc
    | dial => exact ⟨[.dialErr (-1) false, .assign, .joined, .closeFds], _, by simp, by simp [Ev.parent, Ev.child], by simp [runs, step, hu, hch]; rfl, rfl⟩
    | write fd rest => exact ⟨[.written, .assign, .joined, .closeFds], _, by simp, by simp [Ev.parent, Ev.child], by simp [runs, step, hu, hch]; rfl, rfl⟩
    | assign fd => exact ⟨[.assign, .joined, .closeFds], _, by simp, by simp [Ev.parent, Ev.child], by simp [runs, step, hu, hch]; rfl, rfl⟩
    | ended => exact ⟨[.joined, .closeFds], _, by simp, by simp [Ev.parent, Ev.child], by simp [runs, step, hu, hch]; rfl, rfl⟩
  have c4 : ∀ u : S, u.pa = .closeLn → (u.ret = 0 → u.ch ≠ .none) → ∃ l u', l.length ≤ 5 ∧ (∀ x ∈ l, x.parent || x.child) ∧ runs u l = some u' ∧ u'.pa = .done := by
    intro u hu hc
    by_cases hr : u.ret = 0
    · obtain ⟨l, u', h1, h2, h3, h4⟩ := c5 { close u u.ln with queue := [], pa := .join } rfl (by dsimp only; rw [close_ch]; exact hc hr)
      refine ⟨.closeLn :: l, u', by simp; omega, ?_, by simpa [runs, step, hu, hr] using h3, h4⟩
      intro x hx
      rcases List.mem_cons.1 hx with rfl | hx
      · rfl
      · exact h2 x hx
    · obtain ⟨u', h3, h4⟩ := c6 { close u u.ln with queue := [], pa := .closeFds } rfl
      exact ⟨[.closeLn, .closeFds], u', by simp, by simp [Ev.parent], by simpa [runs, step, hu, hr] using h3, h4⟩
  have hr0 : s.ret = 0 → s.ch ≠ .none := fun g => (hst (.inr (.inr g))).resolve_right hz
  have more : ∀ (x : Ev) (u : S), x.parent = true → step s x = some u → u.pa = .closeLn → (u.ret = 0 → u.ch ≠ .none) →
      ∃ l s', l.length ≤ 6 ∧ (∀ x ∈ l, x.parent || x.child) ∧ runs s l = some s' ∧ s'.pa = .done := by
    intro x u hx hs hu hc
    obtain ⟨l, u', h1, h2, h3, h4⟩ := c4 u hu hc
    refine ⟨x :: l, u', by simp; omega, ?_, by simpa [runs, hs] using h3, h4⟩
    intro y hy
    rcases List.mem_cons.1 hy with rfl | hy
    · simp [hx]
    · exact h2 y hy
  cases hp : s.pa with
  | serve =>
    exact ⟨[.serveErr 1, .closeFds], _, by simp, by simp [Ev.parent], by simp [runs, step, hp]; rfl, rfl⟩
  | start => exact more (.startErr 1) { s with errno := 1, pa := .closeLn } rfl (by simp [step, hp]) rfl hr0
  | accept => exact more (.acceptErr 1) { s with fd1 := -1, errno := 1, pa := .closeLn } rfl (by simp [step, hp]) rfl hr0
  | read => exact more (.readErr 1) { s with errno := 1, pa := .closeLn } rfl (by simp [step, hp]) rfl hr0
  | closeLn =>
    obtain ⟨l, u', h1, h2, h3, h4⟩ := c4 s hp hr0
    exact ⟨l, u', by omega, h2, h3, h4⟩
  | join =>
    obtain ⟨l, u', h1, h2, h3, h4⟩ := c5 s hp (hr0 (i.join hp))
    exact ⟨l, u', by omega, h2, h3, h4⟩
  | closeFds =>
    obtain ⟨u', h3, h4⟩ := c6 s hp
    exact ⟨_, u', by simp, by simp [Ev.parent], h3, h4⟩
  | done => exact ⟨[], s, by simp, nofun, rfl, hp⟩

/-- Without "nobody cancels the child" `C65_ok_partial` is false: the call returns 0 and `pipefd[0]` is -2. -/
theorem C65_ok_cancel_not_general : ¬ ∀ (p : Int × Int) (s : S), Reach (init sec p true 0) s → s.pa = .done → s.ret = 0 → Unguessed s → Ends s s.pipefd.1 s.pipefd.2 := by
  intro h
  obtain ⟨s, hr, e⟩ := of_runs (p := (9, 9)) [.serveOk 3, .startOk, .dialOk 4, .sent 8, .killed, .acceptOk 5, .readOk, .closeLn, .joined, .closeFds] (by decide +kernel)
  have k := congrArg (Option.map fun s => (s.pa, s.ret, s.pipefd.1, s.next, (s.conns 0).foreign)) e
  simp only [Option.map_some] at k
  have k := k.symm.trans (show _ = some (Pa.done, (0 : Int), (-2 : Int), 1, false) from rfl)
  simp only [Option.some.injEq, Prod.mk.injEq] at k
  obtain ⟨k1, k2, k3, k4, k5⟩ := k
  have := (h _ s hr k1 k2 (by
    intro c hc hf
    obtain rfl : c = 0 := by omega
    rw [k5] at hf; cases hf)).1
  omega

/-- Without "no other process knows the secret" it is false: the two descriptors belong to different connections. -/
theorem C65_ok_guess_not_general : ¬ ∀ (p : Int × Int) (s : S), Reach (init sec p true 0) s → s.pa = .done → s.ret = 0 → s.killed = false → Ends s s.pipefd.1 s.pipefd.2 := by
  intro h
  obtain ⟨s, hr, e⟩ := of_runs (p := (9, 9)) [.serveOk 3, .startOk, .connect, .send 0 sec, .dialOk 4, .sent 8, .written, .assign, .acceptOk 5, .readOk, .closeLn, .joined, .closeFds] (by decide +kernel)
  have k := congrArg (Option.map fun s => (s.pa, s.ret, s.pipefd, s.killed, s.fds 4, s.fds 5)) e
  simp only [Option.map_some] at k
  have k := k.symm.trans (show _ = some (Pa.done, (0 : Int), ((4, 5) : Int × Int), false, some (⟨.near 1, true⟩ : Fd), some (⟨.far 0, true⟩ : Fd)) from rfl)
  simp only [Option.some.injEq, Prod.mk.injEq] at k
  obtain ⟨k1, k2, k3, k4, k5, k6⟩ := k
  obtain ⟨_, _, _, c, g1, g2, _⟩ := h _ s hr k1 k2 k4
  rw [k3] at g1 g2
  rw [show ((4, 5) : Int × Int).1.toNat = 4 by decide, k5] at g1
  rw [show ((4, 5) : Int × Int).2.toNat = 5 by decide, k6] at g2
  cases g1
  cases g2

/-- A `neco_pipe` that fails while its child is still writing returns; later the child stores its descriptor in a variable that is gone, and the
descriptor stays open. -/
theorem C65_safe_not_general : ¬ ∀ (p : Int × Int) (s : S), Reach (init sec p true 0) s → s.killed = false → s.fault = false := by
  intro h
  obtain ⟨s, hr, e⟩ := of_runs (p := (9, 9)) [.serveOk 3, .startOk, .dialOk 4, .sent 0, .acceptOk 5, .readErr 110, .closeLn, .closeFds, .written, .assign] (by decide +kernel)
  have k := congrArg (Option.map fun s => (s.killed, s.fault)) e
  simp only [Option.map_some] at k
  have k := k.symm.trans (show _ = some (false, true) from rfl)
  simp only [Option.some.injEq, Prod.mk.injEq] at k
  have := h _ s hr k.1
  rw [k.2] at this
  cases this

/-- If the listening socket is descriptor 0 the call fails and leaves it open. -/
theorem C65_clean_not_general : ¬ ∀ (p : Int × Int) (s : S), Reach (init sec p true 0) s → s.pa = .done → s.ret ≠ 0 → InTime s → s.killed = false → ∀ x, s.fds x = none := by
  intro h
  obtain ⟨s, hr, e⟩ := of_runs (p := (9, 9)) [.serveOk 0, .closeFds] (by decide +kernel)
  have k := congrArg (Option.map fun s => (s.pa, s.ret, s.fault, s.ch, s.killed, s.fds 0)) e
  simp only [Option.map_some] at k
  have k := k.symm.trans (show _ = some (Pa.done, (-1 : Int), false, Ch.none, false, some (⟨.listener, true⟩ : Fd)) from rfl)
  simp only [Option.some.injEq, Prod.mk.injEq] at k
  obtain ⟨k1, k2, k3, k4, k5, k6⟩ := k
  have := h _ s hr k1 (by omega) ⟨k3, .inl k4⟩ k5 0
  rw [k6] at this
  cases this

/-- `errno` says why the call failed: false if the connection is closed before the handshake (or the listening or accepted descriptor is 0). -/
theorem C65_errno_not_general : ¬ ∀ (p : Int × Int) (s : S), Reach (init sec p true 0) s → s.pa = .done → s.ret ≠ 0 → s.ln ≠ 0 → s.errno ≠ 0 := by
  intro h
  obtain ⟨s, hr, e⟩ := of_runs (p := (9, 9)) [.serveOk 3, .startOk, .connect, .hangup 0, .dialOk 4, .sent 8, .written, .assign, .acceptOk 5, .readOk, .closeLn, .closeFds] (by decide +kernel)
  have k := congrArg (Option.map fun s => (s.pa, s.ret, s.ln, s.errno)) e
  simp only [Option.map_some] at k
  have k := k.symm.trans (show _ = some (Pa.done, (-1 : Int), (3 : Int), (0 : Int)) from rfl)
  simp only [Option.some.injEq, Prod.mk.injEq] at k
  obtain ⟨k1, k2, k3, k4⟩ := k
  exact h _ s hr k1 (by omega) (by omega) k4

end Neco.Pipe
