import Verif.Spec.Pipe

/-! # Lemmas: pipes -/

namespace Neco.Pipe

/-- the parent is between `serve` and `close` of the listening socket -/
def Pa.open (p : Pa) : Prop := p = .start ∨ p = .accept ∨ p = .read ∨ p = .closeLn
def Pa.last (p : Pa) : Prop := p = .closeFds ∨ p = .done

structure Inv (secret : List UInt8) (p : Int × Int) (e0 : Bool) (s : S) : Prop where
  lnz : s.ln = 0 → s.pa.last ∧ s.ret = -1 ∧ s.ch = .none
  sec : s.secret = secret
  old : s.oldstate = e0
  ena : (s.pa ≠ .done → s.enabled = false) ∧ (s.pa = .done → s.enabled = e0)
  ret : s.ret = 0 ∨ s.ret = -1
  succ : s.ret = 0 → s.pa = .closeLn ∨ s.pa = .join ∨ s.pa.last
  join : s.pa = .join → s.ret = 0
  fault : s.fault = true → s.pa = .done ∧ s.ret = -1 ∧ s.ch = .ended
  same : ¬ (s.ret = 0 ∧ s.pa.last) → s.pipefd = p
  pre : s.pa = .serve → (∀ x, s.fds x = none) ∧ s.next = 0 ∧ s.ln = -1
  nochild : s.pa = .serve ∨ s.pa = .start → s.ch = .none
  fd0neg : s.ch ≠ .ended → s.fd0 < 0
  fd1neg : s.pa = .serve ∨ s.pa = .start ∨ s.pa = .accept → s.fd1 < 0
  lis : ∀ x nb, s.fds x = some ⟨.listener, nb⟩ → (x : Int) = s.ln ∧ nb = true ∧ (s.pa.open ∨ s.ln = 0)
  lis' : s.pa.open → 0 < s.ln ∧ s.fds s.ln.toNat = some ⟨.listener, true⟩
  near : ∀ x c nb, s.fds x = some ⟨.near c, nb⟩ → nb = true ∧ c < s.next ∧ (s.conns c).foreign = false ∧ (s.conns c).closed = false ∧
    ((∃ rest, s.ch = .write x rest) ∨ s.ch = .assign x ∨ (s.ch = .ended ∧ (s.killed = true ∨ (s.fd0 = x ∧ s.pa ≠ .done) ∨ (s.pa.last ∧ s.ret = 0 ∧ s.pipefd.1 = x) ∨ s.fault = true)))
  mine : (s.pa ≠ .done ∨ s.ret = 0) → ∀ c, c < s.next → (s.conns c).foreign = false → (s.conns c).closed = false →
    (∃ x rest, s.ch = .write x rest ∧ s.fds x = some ⟨.near c, true⟩) ∨ (∃ x : Nat, s.ch = .assign x ∧ s.fds x = some ⟨.near c, true⟩) ∨
    (s.ch = .ended ∧ (s.killed = true ∨ (¬ (s.ret = 0 ∧ s.pa.last) ∧ 0 ≤ s.fd0 ∧ s.fds s.fd0.toNat = some ⟨.near c, true⟩) ∨
      (s.ret = 0 ∧ s.pa.last ∧ 0 ≤ s.pipefd.1 ∧ s.fds s.pipefd.1.toNat = some ⟨.near c, true⟩)))
  wr : ∀ x rest, s.ch = .write x rest → (∃ c, s.fds x = some ⟨.near c, true⟩) ∧ ∀ c nb, s.fds x = some ⟨.near c, nb⟩ → (s.conns c).sent ++ rest = s.secret
  as : ∀ x : Int, s.ch = .assign x → 0 ≤ x → ∃ c, s.fds x.toNat = some ⟨.near c, true⟩
  zero : s.pa ≠ .done → 0 ≤ s.fd0 → ∃ c, s.fds s.fd0.toNat = some ⟨.near c, true⟩
  pref : ∀ c, c < s.next → (s.conns c).foreign = false → (s.conns c).sent <+: s.secret
  dead : ∀ c, c < s.next → (s.conns c).foreign = false → (s.conns c).closed = true → (s.conns c).sent = []
  far : ∀ x c nb, s.fds x = some ⟨.far c, nb⟩ → nb = true ∧ c < s.next ∧ ((s.fd1 = x ∧ (s.pa = .read ∨ s.pa = .closeLn ∨ s.pa = .join ∨ s.pa = .closeFds)) ∨ (s.pa.last ∧ s.ret = 0 ∧ s.pipefd.2 = x))
  far' : s.pa ≠ .done → 0 ≤ s.fd1 → ∃ c, s.fds s.fd1.toNat = some ⟨.far c, true⟩
  rd : s.pa = .read → 0 < s.fd1
  data : s.pa = .serve ∨ s.pa = .start ∨ s.pa = .accept ∨ s.pa = .read → ∀ c, c < s.next → (s.conns c).data = (s.conns c).sent
  queue : ∀ c ∈ s.queue, c < s.next
  ok : s.ret = 0 → ¬ s.pa.last → 0 < s.fd1 ∧ ∃ c, s.fds s.fd1.toNat = some ⟨.far c, true⟩ ∧ (s.conns c).sent.take 8 = s.secret ∧ ((s.conns c).foreign = false → (s.conns c).data = [])
  ok' : s.ret = 0 → s.pa.last → s.fd0 = -1 ∧ s.fd1 = -1 ∧ s.ch = .ended ∧ 0 < s.pipefd.2 ∧
    ∃ c, s.fds s.pipefd.2.toNat = some ⟨.far c, true⟩ ∧ (s.conns c).sent.take 8 = s.secret ∧ ((s.conns c).foreign = false → (s.conns c).data = [])

theorem Inv.init {secret : List UInt8} {p : Int × Int} {e0 : Bool} {e : Int} : Inv secret p e0 (init secret p e0 e) := by
  constructor <;> simp [Pipe.init, Pa.open, Pa.last]

theorem upd_eq {α : Type} (f : Nat → α) (x : Nat) (v : α) (y : Nat) : upd f x v y = if y = x then v else f y := rfl

theorem close_ln {secret : List UInt8} {p : Int × Int} {e0 : Bool} {s : S} (h : Inv secret p e0 s) (hc : s.pa = .closeLn) :
    close s s.ln = { s with fds := upd s.fds s.ln.toNat none } := by
  obtain ⟨h1, h2⟩ := h.lis' (by simp [Pa.open, hc])
  unfold close
  rw [if_neg (by omega), if_pos (by rw [h2]; rfl)]

theorem close_fds {secret : List UInt8} {p : Int × Int} {e0 : Bool} {s : S} (h : Inv secret p e0 s) (hc : s.pa ≠ .done) :
    ∃ f, (∀ y, f y = if (0 ≤ s.fd0 ∧ y = s.fd0.toNat) ∨ (0 ≤ s.fd1 ∧ y = s.fd1.toNat) then none else s.fds y) ∧
      close (close s s.fd0) s.fd1 = { s with fds := f } := by
  have hz := h.zero hc
  have hf := h.far' hc
  refine ⟨_, fun _ => rfl, ?_⟩
  by_cases h0 : 0 ≤ s.fd0
  · obtain ⟨c, hz⟩ := hz h0
    have e : close s s.fd0 = { s with fds := upd s.fds s.fd0.toNat none } := by
      unfold close
      rw [if_neg (by omega), if_pos (by rw [hz]; rfl)]
    rw [e]
    unfold close
    by_cases h1 : 0 ≤ s.fd1
    · obtain ⟨d, hf⟩ := hf h1
      have hne : s.fd1.toNat ≠ s.fd0.toNat := by intro e; rw [e, hz] at hf; cases hf
      rw [if_neg (by omega), if_pos (by simp only [upd_eq, if_neg hne, hf]; rfl)]
      simp only [S.mk.injEq, true_and, and_true]
      funext y
      simp only [upd_eq]
      grind
    · rw [if_pos (by omega)]
      simp only [S.mk.injEq, true_and, and_true]
      funext y
      simp only [upd_eq]
      grind
  · have e : close s s.fd0 = s := by
      unfold close
      rw [if_pos (by omega)]
    rw [e]
    unfold close
    by_cases h1 : 0 ≤ s.fd1
    · obtain ⟨d, hf⟩ := hf h1
      rw [if_neg (by omega), if_pos (by rw [hf]; rfl)]
      obtain ⟨_, _⟩ := s
      simp only [S.mk.injEq, true_and, and_true]
      funext y
      simp only [upd_eq]
      grind
    · rw [if_pos (by omega)]
      obtain ⟨_, _⟩ := s
      simp only [S.mk.injEq, true_and, and_true]
      funext y
      grind

theorem take8 {l b k : List UInt8} (hk : k.length = 8) (h : l.take 8 = k) : (l ++ b).take 8 = k := by
  have : 8 ≤ l.length := by have := congrArg List.length h; rw [List.length_take] at this; omega
  rw [List.take_append_of_le_length this, h]
theorem full {l r k : List UInt8} (hk : k.length = 8) (h : l.take 8 = k) (h' : l ++ r = k) : r = [] := by
  have h1 := congrArg List.length h
  have h2 := congrArg List.length h'
  rw [List.length_take] at h1
  rw [List.length_append] at h2
  exact List.length_eq_zero_iff.mp (by omega)

theorem Inv.serveOk_step {secret : List UInt8} {p : Int × Int} {e0 : Bool} {s s' : S} {fd : Nat} (hl : secret.length = 8) (h : Inv secret p e0 s) (hs : Pipe.step s (.serveOk fd) = some s') : Inv secret p e0 s' := by
  simp only [Pipe.step, Option.ite_none_right_eq_some, Option.some.injEq] at hs
  obtain ⟨hc, rfl⟩ := hs
  constructor
  case lnz => have a_lnz := h.lnz; have a_lis1 := h.lis'; have a_pre := h.pre; have a_nochild := h.nochild; have a_succ := h.succ; have a_ret := h.ret; clear h; simp only [Pa.open, Pa.last, Pipe.connect, Pipe.send, upd_eq] at *; grind
  case sec => have a_sec := h.sec; clear h; simp only [Pa.open, Pa.last, Pipe.connect, Pipe.send, upd_eq] at *; grind
  case old => have a_old := h.old; clear h; simp only [Pa.open, Pa.last, Pipe.connect, Pipe.send, upd_eq] at *; grind
  case ena => have a_ena := h.ena; have a_old := h.old; clear h; simp only [Pa.open, Pa.last, Pipe.connect, Pipe.send, upd_eq] at *; grind
  case ret => have a_ret := h.ret; clear h; simp only [Pa.open, Pa.last, Pipe.connect, Pipe.send, upd_eq] at *; grind
  case succ => have a_succ := h.succ; clear h; simp only [Pa.open, Pa.last, Pipe.connect, Pipe.send, upd_eq] at *; grind
  case join => have a_join := h.join; have a_ret := h.ret; have a_succ := h.succ; clear h; simp only [Pa.open, Pa.last, Pipe.connect, Pipe.send, upd_eq] at *; grind
  case fault => have a_fault := h.fault; have a_ret := h.ret; have a_nochild := h.nochild; have a_join := h.join; have a_succ := h.succ; clear h; simp only [Pa.open, Pa.last, Pipe.connect, Pipe.send, upd_eq] at *; grind
  case same => have a_same := h.same; have a_succ := h.succ; have a_join := h.join; clear h; simp only [Pa.open, Pa.last, Pipe.connect, Pipe.send, upd_eq] at *; grind
  case pre => have a_pre := h.pre; clear h; simp only [Pa.open, Pa.last, Pipe.connect, Pipe.send, upd_eq] at *; grind
  case nochild => have a_nochild := h.nochild; clear h; simp only [Pa.open, Pa.last, Pipe.connect, Pipe.send, upd_eq] at *; grind
  case fd0neg => have a_fd0neg := h.fd0neg; have a_ok1 := h.ok'; clear h; simp only [Pa.open, Pa.last, Pipe.connect, Pipe.send, upd_eq] at *; grind
  case fd1neg => have a_fd1neg := h.fd1neg; clear h; simp only [Pa.open, Pa.last, Pipe.connect, Pipe.send, upd_eq] at *; grind
  case lis => have a_lis := h.lis; have a_lis1 := h.lis'; have a_pre := h.pre; clear h; simp only [Pa.open, Pa.last, Pipe.connect, Pipe.send, upd_eq] at *; grind
  case lis' => have a_lis1 := h.lis'; have a_lis := h.lis; have a_pre := h.pre; have a_near := h.near; have a_far := h.far; clear h; simp only [Pa.open, Pa.last, Pipe.connect, Pipe.send, upd_eq] at *; grind
  case near => have a_near := h.near; have a_fault := h.fault; have a_pre := h.pre; have a_nochild := h.nochild; have a_fd0neg := h.fd0neg; have a_zero := h.zero; have a_as := h.as; have a_wr := h.wr; have a_lis1 := h.lis'; have a_succ := h.succ; clear h; simp only [Pa.open, Pa.last, Pipe.connect, Pipe.send, upd_eq] at *; grind
  case mine => have a_mine := h.mine; have a_nochild := h.nochild; have a_wr := h.wr; have a_as := h.as; have a_near := h.near; have a_zero := h.zero; have a_fd0neg := h.fd0neg; have a_ok1 := h.ok'; have a_succ := h.succ; have a_join := h.join; have a_lis1 := h.lis'; have a_far1 := h.far'; clear h; simp only [Pa.open, Pa.last, Pipe.connect, Pipe.send, upd_eq] at *; grind
  case wr => have a_wr := h.wr; have a_lis1 := h.lis'; have a_sec := h.sec; have a_near := h.near; have a_far := h.far; have a_far1 := h.far'; clear h; simp only [Pa.open, Pa.last, Pipe.connect, Pipe.send, upd_eq] at *; grind
  case as => have a_as := h.as; have a_lis1 := h.lis'; have a_wr := h.wr; have a_near := h.near; have a_far := h.far; have a_far1 := h.far'; clear h; simp only [Pa.open, Pa.last, Pipe.connect, Pipe.send, upd_eq] at *; grind
  case zero => have a_zero := h.zero; have a_as := h.as; have a_lis1 := h.lis'; have a_far1 := h.far'; have a_near := h.near; have a_fd0neg := h.fd0neg; have a_ok1 := h.ok'; have a_far := h.far; clear h; simp only [Pa.open, Pa.last, Pipe.connect, Pipe.send, upd_eq] at *; grind
  case pref => have a_pref := h.pref; have a_wr := h.wr; have a_near := h.near; clear h; simp only [Pa.open, Pa.last, Pipe.connect, Pipe.send, upd_eq] at *; grind
  case dead => have a_dead := h.dead; have a_near := h.near; clear h; simp only [Pa.open, Pa.last, Pipe.connect, Pipe.send, upd_eq] at *; grind
  case far => have a_far := h.far; have a_pre := h.pre; have a_queue := h.queue; have a_far1 := h.far'; have a_near := h.near; have a_lis1 := h.lis'; have a_succ := h.succ; have a_join := h.join; have a_ok := h.ok; have a_ok1 := h.ok'; have a_fd1neg := h.fd1neg; have a_ret := h.ret; clear h; simp only [Pa.open, Pa.last, Pipe.connect, Pipe.send, upd_eq] at *; grind
  case far' => have a_far1 := h.far'; have a_near := h.near; have a_zero := h.zero; have a_lis1 := h.lis'; have a_ok1 := h.ok'; have a_pre := h.pre; have a_ok := h.ok; have a_rd := h.rd; have a_far := h.far; clear h; simp only [Pa.open, Pa.last, Pipe.connect, Pipe.send, upd_eq] at *; grind
  case rd => have a_rd := h.rd; clear h; simp only [Pa.open, Pa.last, Pipe.connect, Pipe.send, upd_eq] at *; grind
  case data => have a_data := h.data; have a_near := h.near; clear h; simp only [Pa.open, Pa.last, Pipe.connect, Pipe.send, upd_eq] at *; grind
  case queue => have a_queue := h.queue; clear h; simp only [Pa.open, Pa.last, Pipe.connect, Pipe.send, upd_eq] at *; grind
  case ok => have a_ok := h.ok; have a_data := h.data; have a_pref := h.pref; have a_far := h.far; have a_far1 := h.far'; have a_rd := h.rd; have a_sec := h.sec; have a_lis1 := h.lis'; have a_near := h.near; have a_succ := h.succ; have a_fd1neg := h.fd1neg; clear h; simp only [Pa.open, Pa.last, Pipe.connect, Pipe.send, upd_eq] at *; grind
  case ok' => have a_ok1 := h.ok'; have a_ok := h.ok; have a_far := h.far; have a_near := h.near; have a_lis1 := h.lis'; have a_zero := h.zero; have a_succ := h.succ; have a_join := h.join; clear h; simp only [Pa.open, Pa.last, Pipe.connect, Pipe.send, upd_eq] at *; grind

theorem Inv.serveErr_step {secret : List UInt8} {p : Int × Int} {e0 : Bool} {s s' : S} {e : Int} (hl : secret.length = 8) (h : Inv secret p e0 s) (hs : Pipe.step s (.serveErr e) = some s') : Inv secret p e0 s' := by
  simp only [Pipe.step, Option.ite_none_right_eq_some, Option.some.injEq] at hs
  obtain ⟨hc, rfl⟩ := hs
  constructor
  case lnz => have a_lnz := h.lnz; have a_lis1 := h.lis'; have a_pre := h.pre; have a_nochild := h.nochild; have a_succ := h.succ; have a_ret := h.ret; clear h; simp only [Pa.open, Pa.last, Pipe.connect, Pipe.send, upd_eq] at *; grind
  case sec => have a_sec := h.sec; clear h; simp only [Pa.open, Pa.last, Pipe.connect, Pipe.send, upd_eq] at *; grind
  case old => have a_old := h.old; clear h; simp only [Pa.open, Pa.last, Pipe.connect, Pipe.send, upd_eq] at *; grind
  case ena => have a_ena := h.ena; have a_old := h.old; clear h; simp only [Pa.open, Pa.last, Pipe.connect, Pipe.send, upd_eq] at *; grind
  case ret => have a_ret := h.ret; clear h; simp only [Pa.open, Pa.last, Pipe.connect, Pipe.send, upd_eq] at *; grind
  case succ => have a_succ := h.succ; clear h; simp only [Pa.open, Pa.last, Pipe.connect, Pipe.send, upd_eq] at *; grind
  case join => have a_join := h.join; have a_ret := h.ret; have a_succ := h.succ; clear h; simp only [Pa.open, Pa.last, Pipe.connect, Pipe.send, upd_eq] at *; grind
  case fault => have a_fault := h.fault; have a_ret := h.ret; have a_nochild := h.nochild; have a_join := h.join; have a_succ := h.succ; clear h; simp only [Pa.open, Pa.last, Pipe.connect, Pipe.send, upd_eq] at *; grind
  case same => have a_same := h.same; have a_succ := h.succ; have a_join := h.join; clear h; simp only [Pa.open, Pa.last, Pipe.connect, Pipe.send, upd_eq] at *; grind
  case pre => have a_pre := h.pre; clear h; simp only [Pa.open, Pa.last, Pipe.connect, Pipe.send, upd_eq] at *; grind
  case nochild => have a_nochild := h.nochild; clear h; simp only [Pa.open, Pa.last, Pipe.connect, Pipe.send, upd_eq] at *; grind
  case fd0neg => have a_fd0neg := h.fd0neg; have a_ok1 := h.ok'; clear h; simp only [Pa.open, Pa.last, Pipe.connect, Pipe.send, upd_eq] at *; grind
  case fd1neg => have a_fd1neg := h.fd1neg; clear h; simp only [Pa.open, Pa.last, Pipe.connect, Pipe.send, upd_eq] at *; grind
  case lis => have a_lis := h.lis; have a_lis1 := h.lis'; have a_pre := h.pre; clear h; simp only [Pa.open, Pa.last, Pipe.connect, Pipe.send, upd_eq] at *; grind
  case lis' => have a_lis1 := h.lis'; have a_lis := h.lis; have a_pre := h.pre; have a_near := h.near; have a_far := h.far; clear h; simp only [Pa.open, Pa.last, Pipe.connect, Pipe.send, upd_eq] at *; grind
  case near => have a_near := h.near; have a_fault := h.fault; have a_pre := h.pre; have a_nochild := h.nochild; have a_fd0neg := h.fd0neg; have a_zero := h.zero; have a_as := h.as; have a_wr := h.wr; have a_lis1 := h.lis'; have a_succ := h.succ; clear h; simp only [Pa.open, Pa.last, Pipe.connect, Pipe.send, upd_eq] at *; grind
  case mine => have a_mine := h.mine; have a_nochild := h.nochild; have a_wr := h.wr; have a_as := h.as; have a_near := h.near; have a_zero := h.zero; have a_fd0neg := h.fd0neg; have a_ok1 := h.ok'; have a_succ := h.succ; have a_join := h.join; have a_lis1 := h.lis'; have a_far1 := h.far'; clear h; simp only [Pa.open, Pa.last, Pipe.connect, Pipe.send, upd_eq] at *; grind
  case wr => have a_wr := h.wr; have a_lis1 := h.lis'; have a_sec := h.sec; have a_near := h.near; have a_far := h.far; have a_far1 := h.far'; clear h; simp only [Pa.open, Pa.last, Pipe.connect, Pipe.send, upd_eq] at *; grind
  case as => have a_as := h.as; have a_lis1 := h.lis'; have a_wr := h.wr; have a_near := h.near; have a_far := h.far; have a_far1 := h.far'; clear h; simp only [Pa.open, Pa.last, Pipe.connect, Pipe.send, upd_eq] at *; grind
  case zero => have a_zero := h.zero; have a_as := h.as; have a_lis1 := h.lis'; have a_far1 := h.far'; have a_near := h.near; have a_fd0neg := h.fd0neg; have a_ok1 := h.ok'; have a_far := h.far; clear h; simp only [Pa.open, Pa.last, Pipe.connect, Pipe.send, upd_eq] at *; grind
  case pref => have a_pref := h.pref; have a_wr := h.wr; have a_near := h.near; clear h; simp only [Pa.open, Pa.last, Pipe.connect, Pipe.send, upd_eq] at *; grind
  case dead => have a_dead := h.dead; have a_near := h.near; clear h; simp only [Pa.open, Pa.last, Pipe.connect, Pipe.send, upd_eq] at *; grind
  case far => have a_far := h.far; have a_pre := h.pre; have a_queue := h.queue; have a_far1 := h.far'; have a_near := h.near; have a_lis1 := h.lis'; have a_succ := h.succ; have a_join := h.join; have a_ok := h.ok; have a_ok1 := h.ok'; have a_fd1neg := h.fd1neg; have a_ret := h.ret; clear h; simp only [Pa.open, Pa.last, Pipe.connect, Pipe.send, upd_eq] at *; grind
  case far' => have a_far1 := h.far'; have a_near := h.near; have a_zero := h.zero; have a_lis1 := h.lis'; have a_ok1 := h.ok'; have a_pre := h.pre; have a_ok := h.ok; have a_rd := h.rd; have a_far := h.far; clear h; simp only [Pa.open, Pa.last, Pipe.connect, Pipe.send, upd_eq] at *; grind
  case rd => have a_rd := h.rd; clear h; simp only [Pa.open, Pa.last, Pipe.connect, Pipe.send, upd_eq] at *; grind
  case data => have a_data := h.data; have a_near := h.near; clear h; simp only [Pa.open, Pa.last, Pipe.connect, Pipe.send, upd_eq] at *; grind
  case queue => have a_queue := h.queue; clear h; simp only [Pa.open, Pa.last, Pipe.connect, Pipe.send, upd_eq] at *; grind
  case ok => have a_ok := h.ok; have a_data := h.data; have a_pref := h.pref; have a_far := h.far; have a_far1 := h.far'; have a_rd := h.rd; have a_sec := h.sec; have a_lis1 := h.lis'; have a_near := h.near; have a_succ := h.succ; have a_fd1neg := h.fd1neg; clear h; simp only [Pa.open, Pa.last, Pipe.connect, Pipe.send, upd_eq] at *; grind
  case ok' => have a_ok1 := h.ok'; have a_ok := h.ok; have a_far := h.far; have a_near := h.near; have a_lis1 := h.lis'; have a_zero := h.zero; have a_succ := h.succ; have a_join := h.join; clear h; simp only [Pa.open, Pa.last, Pipe.connect, Pipe.send, upd_eq] at *; grind

theorem Inv.startOk_step {secret : List UInt8} {p : Int × Int} {e0 : Bool} {s s' : S} (hl : secret.length = 8) (h : Inv secret p e0 s) (hs : Pipe.step s (.startOk) = some s') : Inv secret p e0 s' := by
  simp only [Pipe.step, Option.ite_none_right_eq_some, Option.some.injEq] at hs
  obtain ⟨hc, rfl⟩ := hs
  constructor
  case lnz => have a_lnz := h.lnz; have a_lis1 := h.lis'; have a_pre := h.pre; have a_nochild := h.nochild; have a_succ := h.succ; have a_ret := h.ret; clear h; simp only [Pa.open, Pa.last, Pipe.connect, Pipe.send, upd_eq] at *; grind
  case sec => have a_sec := h.sec; clear h; simp only [Pa.open, Pa.last, Pipe.connect, Pipe.send, upd_eq] at *; grind
  case old => have a_old := h.old; clear h; simp only [Pa.open, Pa.last, Pipe.connect, Pipe.send, upd_eq] at *; grind
  case ena => have a_ena := h.ena; have a_old := h.old; clear h; simp only [Pa.open, Pa.last, Pipe.connect, Pipe.send, upd_eq] at *; grind
  case ret => have a_ret := h.ret; clear h; simp only [Pa.open, Pa.last, Pipe.connect, Pipe.send, upd_eq] at *; grind
  case succ => have a_succ := h.succ; clear h; simp only [Pa.open, Pa.last, Pipe.connect, Pipe.send, upd_eq] at *; grind
  case join => have a_join := h.join; have a_ret := h.ret; have a_succ := h.succ; clear h; simp only [Pa.open, Pa.last, Pipe.connect, Pipe.send, upd_eq] at *; grind
  case fault => have a_fault := h.fault; have a_ret := h.ret; have a_nochild := h.nochild; have a_join := h.join; have a_succ := h.succ; clear h; simp only [Pa.open, Pa.last, Pipe.connect, Pipe.send, upd_eq] at *; grind
  case same => have a_same := h.same; have a_succ := h.succ; have a_join := h.join; clear h; simp only [Pa.open, Pa.last, Pipe.connect, Pipe.send, upd_eq] at *; grind
  case pre => have a_pre := h.pre; clear h; simp only [Pa.open, Pa.last, Pipe.connect, Pipe.send, upd_eq] at *; grind
  case nochild => have a_nochild := h.nochild; clear h; simp only [Pa.open, Pa.last, Pipe.connect, Pipe.send, upd_eq] at *; grind
  case fd0neg => have a_fd0neg := h.fd0neg; have a_ok1 := h.ok'; have a_nochild := h.nochild; clear h; simp only [Pa.open, Pa.last, Pipe.connect, Pipe.send, upd_eq] at *; grind
  case fd1neg => have a_fd1neg := h.fd1neg; clear h; simp only [Pa.open, Pa.last, Pipe.connect, Pipe.send, upd_eq] at *; grind
  case lis => have a_lis := h.lis; have a_lis1 := h.lis'; have a_pre := h.pre; clear h; simp only [Pa.open, Pa.last, Pipe.connect, Pipe.send, upd_eq] at *; grind
  case lis' => have a_lis1 := h.lis'; have a_lis := h.lis; have a_pre := h.pre; have a_near := h.near; have a_far := h.far; clear h; simp only [Pa.open, Pa.last, Pipe.connect, Pipe.send, upd_eq] at *; grind
  case near => have a_near := h.near; have a_fault := h.fault; have a_pre := h.pre; have a_nochild := h.nochild; have a_fd0neg := h.fd0neg; have a_zero := h.zero; have a_as := h.as; have a_wr := h.wr; have a_lis1 := h.lis'; have a_succ := h.succ; clear h; simp only [Pa.open, Pa.last, Pipe.connect, Pipe.send, upd_eq] at *; grind
  case mine => have a_mine := h.mine; have a_nochild := h.nochild; have a_wr := h.wr; have a_as := h.as; have a_near := h.near; have a_zero := h.zero; have a_fd0neg := h.fd0neg; have a_ok1 := h.ok'; have a_succ := h.succ; have a_join := h.join; have a_lis1 := h.lis'; have a_far1 := h.far'; clear h; simp only [Pa.open, Pa.last, Pipe.connect, Pipe.send, upd_eq] at *; grind
  case wr => have a_wr := h.wr; have a_lis1 := h.lis'; have a_sec := h.sec; have a_near := h.near; have a_far := h.far; have a_far1 := h.far'; clear h; simp only [Pa.open, Pa.last, Pipe.connect, Pipe.send, upd_eq] at *; grind
  case as => have a_as := h.as; have a_lis1 := h.lis'; have a_wr := h.wr; have a_near := h.near; have a_far := h.far; have a_far1 := h.far'; clear h; simp only [Pa.open, Pa.last, Pipe.connect, Pipe.send, upd_eq] at *; grind
  case zero => have a_zero := h.zero; have a_as := h.as; have a_lis1 := h.lis'; have a_far1 := h.far'; have a_near := h.near; have a_fd0neg := h.fd0neg; have a_ok1 := h.ok'; have a_far := h.far; clear h; simp only [Pa.open, Pa.last, Pipe.connect, Pipe.send, upd_eq] at *; grind
  case pref => have a_pref := h.pref; have a_wr := h.wr; have a_near := h.near; clear h; simp only [Pa.open, Pa.last, Pipe.connect, Pipe.send, upd_eq] at *; grind
  case dead => have a_dead := h.dead; have a_near := h.near; clear h; simp only [Pa.open, Pa.last, Pipe.connect, Pipe.send, upd_eq] at *; grind
  case far => have a_far := h.far; have a_pre := h.pre; have a_queue := h.queue; have a_far1 := h.far'; have a_near := h.near; have a_lis1 := h.lis'; have a_succ := h.succ; have a_join := h.join; have a_ok := h.ok; have a_ok1 := h.ok'; have a_fd1neg := h.fd1neg; have a_ret := h.ret; clear h; simp only [Pa.open, Pa.last, Pipe.connect, Pipe.send, upd_eq] at *; grind
  case far' => have a_far1 := h.far'; have a_near := h.near; have a_zero := h.zero; have a_lis1 := h.lis'; have a_ok1 := h.ok'; have a_pre := h.pre; have a_ok := h.ok; have a_rd := h.rd; have a_far := h.far; clear h; simp only [Pa.open, Pa.last, Pipe.connect, Pipe.send, upd_eq] at *; grind
  case rd => have a_rd := h.rd; clear h; simp only [Pa.open, Pa.last, Pipe.connect, Pipe.send, upd_eq] at *; grind
  case data => have a_data := h.data; have a_near := h.near; clear h; simp only [Pa.open, Pa.last, Pipe.connect, Pipe.send, upd_eq] at *; grind
  case queue => have a_queue := h.queue; clear h; simp only [Pa.open, Pa.last, Pipe.connect, Pipe.send, upd_eq] at *; grind
  case ok => have a_ok := h.ok; have a_data := h.data; have a_pref := h.pref; have a_far := h.far; have a_far1 := h.far'; have a_rd := h.rd; have a_sec := h.sec; have a_lis1 := h.lis'; have a_near := h.near; have a_succ := h.succ; have a_fd1neg := h.fd1neg; clear h; simp only [Pa.open, Pa.last, Pipe.connect, Pipe.send, upd_eq] at *; grind
  case ok' => have a_ok1 := h.ok'; have a_ok := h.ok; have a_far := h.far; have a_near := h.near; have a_lis1 := h.lis'; have a_zero := h.zero; have a_succ := h.succ; have a_join := h.join; clear h; simp only [Pa.open, Pa.last, Pipe.connect, Pipe.send, upd_eq] at *; grind

theorem Inv.startErr_step {secret : List UInt8} {p : Int × Int} {e0 : Bool} {s s' : S} {e : Int} (hl : secret.length = 8) (h : Inv secret p e0 s) (hs : Pipe.step s (.startErr e) = some s') : Inv secret p e0 s' := by
  simp only [Pipe.step, Option.ite_none_right_eq_some, Option.some.injEq] at hs
  obtain ⟨hc, rfl⟩ := hs
  constructor
  case lnz => have a_lnz := h.lnz; have a_lis1 := h.lis'; have a_pre := h.pre; have a_nochild := h.nochild; have a_succ := h.succ; have a_ret := h.ret; clear h; simp only [Pa.open, Pa.last, Pipe.connect, Pipe.send, upd_eq] at *; grind
  case sec => have a_sec := h.sec; clear h; simp only [Pa.open, Pa.last, Pipe.connect, Pipe.send, upd_eq] at *; grind
  case old => have a_old := h.old; clear h; simp only [Pa.open, Pa.last, Pipe.connect, Pipe.send, upd_eq] at *; grind
  case ena => have a_ena := h.ena; have a_old := h.old; clear h; simp only [Pa.open, Pa.last, Pipe.connect, Pipe.send, upd_eq] at *; grind
  case ret => have a_ret := h.ret; clear h; simp only [Pa.open, Pa.last, Pipe.connect, Pipe.send, upd_eq] at *; grind
  case succ => have a_succ := h.succ; clear h; simp only [Pa.open, Pa.last, Pipe.connect, Pipe.send, upd_eq] at *; grind
  case join => have a_join := h.join; have a_ret := h.ret; have a_succ := h.succ; clear h; simp only [Pa.open, Pa.last, Pipe.connect, Pipe.send, upd_eq] at *; grind
  case fault => have a_fault := h.fault; have a_ret := h.ret; have a_nochild := h.nochild; have a_join := h.join; have a_succ := h.succ; clear h; simp only [Pa.open, Pa.last, Pipe.connect, Pipe.send, upd_eq] at *; grind
  case same => have a_same := h.same; have a_succ := h.succ; have a_join := h.join; clear h; simp only [Pa.open, Pa.last, Pipe.connect, Pipe.send, upd_eq] at *; grind
  case pre => have a_pre := h.pre; clear h; simp only [Pa.open, Pa.last, Pipe.connect, Pipe.send, upd_eq] at *; grind
  case nochild => have a_nochild := h.nochild; clear h; simp only [Pa.open, Pa.last, Pipe.connect, Pipe.send, upd_eq] at *; grind
  case fd0neg => have a_fd0neg := h.fd0neg; have a_ok1 := h.ok'; clear h; simp only [Pa.open, Pa.last, Pipe.connect, Pipe.send, upd_eq] at *; grind
  case fd1neg => have a_fd1neg := h.fd1neg; clear h; simp only [Pa.open, Pa.last, Pipe.connect, Pipe.send, upd_eq] at *; grind
  case lis => have a_lis := h.lis; have a_lis1 := h.lis'; have a_pre := h.pre; clear h; simp only [Pa.open, Pa.last, Pipe.connect, Pipe.send, upd_eq] at *; grind
  case lis' => have a_lis1 := h.lis'; have a_lis := h.lis; have a_pre := h.pre; have a_near := h.near; have a_far := h.far; clear h; simp only [Pa.open, Pa.last, Pipe.connect, Pipe.send, upd_eq] at *; grind
  case near => have a_near := h.near; have a_fault := h.fault; have a_pre := h.pre; have a_nochild := h.nochild; have a_fd0neg := h.fd0neg; have a_zero := h.zero; have a_as := h.as; have a_wr := h.wr; have a_lis1 := h.lis'; have a_succ := h.succ; clear h; simp only [Pa.open, Pa.last, Pipe.connect, Pipe.send, upd_eq] at *; grind
  case mine => have a_mine := h.mine; have a_nochild := h.nochild; have a_wr := h.wr; have a_as := h.as; have a_near := h.near; have a_zero := h.zero; have a_fd0neg := h.fd0neg; have a_ok1 := h.ok'; have a_succ := h.succ; have a_join := h.join; have a_lis1 := h.lis'; have a_far1 := h.far'; clear h; simp only [Pa.open, Pa.last, Pipe.connect, Pipe.send, upd_eq] at *; grind
  case wr => have a_wr := h.wr; have a_lis1 := h.lis'; have a_sec := h.sec; have a_near := h.near; have a_far := h.far; have a_far1 := h.far'; clear h; simp only [Pa.open, Pa.last, Pipe.connect, Pipe.send, upd_eq] at *; grind
  case as => have a_as := h.as; have a_lis1 := h.lis'; have a_wr := h.wr; have a_near := h.near; have a_far := h.far; have a_far1 := h.far'; clear h; simp only [Pa.open, Pa.last, Pipe.connect, Pipe.send, upd_eq] at *; grind
  case zero => have a_zero := h.zero; have a_as := h.as; have a_lis1 := h.lis'; have a_far1 := h.far'; have a_near := h.near; have a_fd0neg := h.fd0neg; have a_ok1 := h.ok'; have a_far := h.far; clear h; simp only [Pa.open, Pa.last, Pipe.connect, Pipe.send, upd_eq] at *; grind
  case pref => have a_pref := h.pref; have a_wr := h.wr; have a_near := h.near; clear h; simp only [Pa.open, Pa.last, Pipe.connect, Pipe.send, upd_eq] at *; grind
  case dead => have a_dead := h.dead; have a_near := h.near; clear h; simp only [Pa.open, Pa.last, Pipe.connect, Pipe.send, upd_eq] at *; grind
  case far => have a_far := h.far; have a_pre := h.pre; have a_queue := h.queue; have a_far1 := h.far'; have a_near := h.near; have a_lis1 := h.lis'; have a_succ := h.succ; have a_join := h.join; have a_ok := h.ok; have a_ok1 := h.ok'; have a_fd1neg := h.fd1neg; have a_ret := h.ret; clear h; simp only [Pa.open, Pa.last, Pipe.connect, Pipe.send, upd_eq] at *; grind
  case far' => have a_far1 := h.far'; have a_near := h.near; have a_zero := h.zero; have a_lis1 := h.lis'; have a_ok1 := h.ok'; have a_pre := h.pre; have a_ok := h.ok; have a_rd := h.rd; have a_far := h.far; clear h; simp only [Pa.open, Pa.last, Pipe.connect, Pipe.send, upd_eq] at *; grind
  case rd => have a_rd := h.rd; clear h; simp only [Pa.open, Pa.last, Pipe.connect, Pipe.send, upd_eq] at *; grind
  case data => have a_data := h.data; have a_near := h.near; clear h; simp only [Pa.open, Pa.last, Pipe.connect, Pipe.send, upd_eq] at *; grind
  case queue => have a_queue := h.queue; clear h; simp only [Pa.open, Pa.last, Pipe.connect, Pipe.send, upd_eq] at *; grind
  case ok => have a_ok := h.ok; have a_data := h.data; have a_pref := h.pref; have a_far := h.far; have a_far1 := h.far'; have a_rd := h.rd; have a_sec := h.sec; have a_lis1 := h.lis'; have a_near := h.near; have a_succ := h.succ; have a_fd1neg := h.fd1neg; clear h; simp only [Pa.open, Pa.last, Pipe.connect, Pipe.send, upd_eq] at *; grind
  case ok' => have a_ok1 := h.ok'; have a_ok := h.ok; have a_far := h.far; have a_near := h.near; have a_lis1 := h.lis'; have a_zero := h.zero; have a_succ := h.succ; have a_join := h.join; clear h; simp only [Pa.open, Pa.last, Pipe.connect, Pipe.send, upd_eq] at *; grind

theorem Inv.acceptOk_step {secret : List UInt8} {p : Int × Int} {e0 : Bool} {s s' : S} {fd : Nat} (hl : secret.length = 8) (h : Inv secret p e0 s) (hs : Pipe.step s (.acceptOk fd) = some s') : Inv secret p e0 s' := by
  simp only [Pipe.step] at hs
  split at hs
  · rename_i c q _
    simp only [Option.ite_none_right_eq_some, Option.some.injEq] at hs
    obtain ⟨hc, rfl⟩ := hs
    constructor
    case lnz => have a_lnz := h.lnz; have a_lis1 := h.lis'; have a_pre := h.pre; have a_nochild := h.nochild; have a_succ := h.succ; have a_ret := h.ret; clear h; simp only [Pa.open, Pa.last, Pipe.connect, Pipe.send, upd_eq] at *; grind
    case sec => have a_sec := h.sec; clear h; simp only [Pa.open, Pa.last, Pipe.connect, Pipe.send, upd_eq] at *; grind
    case old => have a_old := h.old; clear h; simp only [Pa.open, Pa.last, Pipe.connect, Pipe.send, upd_eq] at *; grind
    case ena => have a_ena := h.ena; have a_old := h.old; clear h; simp only [Pa.open, Pa.last, Pipe.connect, Pipe.send, upd_eq] at *; grind
    case ret => have a_ret := h.ret; clear h; simp only [Pa.open, Pa.last, Pipe.connect, Pipe.send, upd_eq] at *; grind
    case succ => have a_succ := h.succ; clear h; simp only [Pa.open, Pa.last, Pipe.connect, Pipe.send, upd_eq] at *; grind
    case join => have a_join := h.join; have a_ret := h.ret; have a_succ := h.succ; clear h; simp only [Pa.open, Pa.last, Pipe.connect, Pipe.send, upd_eq] at *; grind
    case fault => have a_fault := h.fault; have a_ret := h.ret; have a_nochild := h.nochild; have a_join := h.join; have a_succ := h.succ; clear h; simp only [Pa.open, Pa.last, Pipe.connect, Pipe.send, upd_eq] at *; grind
    case same => have a_same := h.same; have a_succ := h.succ; have a_join := h.join; clear h; simp only [Pa.open, Pa.last, Pipe.connect, Pipe.send, upd_eq] at *; grind
    case pre => have a_pre := h.pre; clear h; simp only [Pa.open, Pa.last, Pipe.connect, Pipe.send, upd_eq] at *; grind
    case nochild => have a_nochild := h.nochild; clear h; simp only [Pa.open, Pa.last, Pipe.connect, Pipe.send, upd_eq] at *; grind
    case fd0neg => have a_fd0neg := h.fd0neg; have a_ok1 := h.ok'; clear h; simp only [Pa.open, Pa.last, Pipe.connect, Pipe.send, upd_eq] at *; grind
    case fd1neg => have a_fd1neg := h.fd1neg; clear h; simp only [Pa.open, Pa.last, Pipe.connect, Pipe.send, upd_eq] at *; grind
    case lis => have a_lis := h.lis; have a_lis1 := h.lis'; have a_pre := h.pre; clear h; simp only [Pa.open, Pa.last, Pipe.connect, Pipe.send, upd_eq] at *; grind
    case lis' => have a_lis1 := h.lis'; have a_lis := h.lis; have a_pre := h.pre; have a_near := h.near; have a_far := h.far; clear h; simp only [Pa.open, Pa.last, Pipe.connect, Pipe.send, upd_eq] at *; grind
    case near => have a_near := h.near; have a_fault := h.fault; have a_pre := h.pre; have a_nochild := h.nochild; have a_fd0neg := h.fd0neg; have a_zero := h.zero; have a_as := h.as; have a_wr := h.wr; have a_lis1 := h.lis'; have a_succ := h.succ; clear h; simp only [Pa.open, Pa.last, Pipe.connect, Pipe.send, upd_eq] at *; grind
    case mine =>
      have a_mine := h.mine; clear h
      have ne : ∀ {y o}, s.fds y = some o → (upd s.fds fd (some ⟨.far c, true⟩)) y = some o := by intro y o e; rw [upd_eq, if_neg]; exact e; rintro rfl; rw [hc.2] at e; cases e
      have hl' : ¬ (s.ret = 0 ∧ (if 0 < fd then Pa.read else Pa.closeLn).last) := by unfold Pa.last; split <;> simp
      intro _ d hd hf hcl
      rcases a_mine (.inl (by rw [hc.1]; decide)) d hd hf hcl with ⟨x, r, e1, e2⟩ | ⟨x, e1, e2⟩ | ⟨e1, e2 | ⟨_, e2, e3⟩ | ⟨_, e2, _⟩⟩
      · exact .inl ⟨x, r, e1, ne e2⟩
      · exact .inr (.inl ⟨x, e1, ne e2⟩)
      · exact .inr (.inr ⟨e1, .inl e2⟩)
      · exact .inr (.inr ⟨e1, .inr (.inl ⟨hl', e2, ne e3⟩)⟩)
      · rw [hc.1] at e2; simp [Pa.last] at e2
    case wr => have a_wr := h.wr; have a_lis1 := h.lis'; have a_sec := h.sec; have a_near := h.near; have a_far := h.far; have a_far1 := h.far'; clear h; simp only [Pa.open, Pa.last, Pipe.connect, Pipe.send, upd_eq] at *; grind
    case as => have a_as := h.as; have a_lis1 := h.lis'; have a_wr := h.wr; have a_near := h.near; have a_far := h.far; have a_far1 := h.far'; clear h; simp only [Pa.open, Pa.last, Pipe.connect, Pipe.send, upd_eq] at *; grind
    case zero => have a_zero := h.zero; have a_as := h.as; have a_lis1 := h.lis'; have a_far1 := h.far'; have a_near := h.near; have a_fd0neg := h.fd0neg; have a_ok1 := h.ok'; have a_far := h.far; clear h; simp only [Pa.open, Pa.last, Pipe.connect, Pipe.send, upd_eq] at *; grind
    case pref => have a_pref := h.pref; have a_wr := h.wr; have a_near := h.near; clear h; simp only [Pa.open, Pa.last, Pipe.connect, Pipe.send, upd_eq] at *; grind
    case dead => have a_dead := h.dead; have a_near := h.near; clear h; simp only [Pa.open, Pa.last, Pipe.connect, Pipe.send, upd_eq] at *; grind
    case far => have a_far := h.far; have a_pre := h.pre; have a_queue := h.queue; have a_far1 := h.far'; have a_near := h.near; have a_lis1 := h.lis'; have a_succ := h.succ; have a_join := h.join; have a_ok := h.ok; have a_ok1 := h.ok'; have a_fd1neg := h.fd1neg; have a_ret := h.ret; clear h; simp only [Pa.open, Pa.last, Pipe.connect, Pipe.send, upd_eq] at *; grind
    case far' => have a_far1 := h.far'; have a_near := h.near; have a_zero := h.zero; have a_lis1 := h.lis'; have a_ok1 := h.ok'; have a_pre := h.pre; have a_ok := h.ok; have a_rd := h.rd; have a_far := h.far; clear h; exact fun _ _ => ⟨_, by simp [upd_eq]; rfl⟩
    case rd => have a_rd := h.rd; clear h; simp only [Pa.open, Pa.last, Pipe.connect, Pipe.send, upd_eq] at *; grind
    case data => have a_data := h.data; have a_near := h.near; clear h; simp only [Pa.open, Pa.last, Pipe.connect, Pipe.send, upd_eq] at *; grind
    case queue => have a_queue := h.queue; clear h; simp only [Pa.open, Pa.last, Pipe.connect, Pipe.send, upd_eq] at *; grind
    case ok => have a_ok := h.ok; have a_data := h.data; have a_pref := h.pref; have a_far := h.far; have a_far1 := h.far'; have a_rd := h.rd; have a_sec := h.sec; have a_lis1 := h.lis'; have a_near := h.near; have a_succ := h.succ; have a_fd1neg := h.fd1neg; clear h; simp only [Pa.open, Pa.last, Pipe.connect, Pipe.send, upd_eq] at *; grind
    case ok' => have a_ok1 := h.ok'; have a_ok := h.ok; have a_far := h.far; have a_near := h.near; have a_lis1 := h.lis'; have a_zero := h.zero; have a_succ := h.succ; have a_join := h.join; clear h; simp only [Pa.open, Pa.last, Pipe.connect, Pipe.send, upd_eq] at *; grind
  · cases hs

theorem Inv.acceptErr_step {secret : List UInt8} {p : Int × Int} {e0 : Bool} {s s' : S} {e : Int} (hl : secret.length = 8) (h : Inv secret p e0 s) (hs : Pipe.step s (.acceptErr e) = some s') : Inv secret p e0 s' := by
  simp only [Pipe.step, Option.ite_none_right_eq_some, Option.some.injEq] at hs
  obtain ⟨hc, rfl⟩ := hs
  constructor
  case lnz => have a_lnz := h.lnz; have a_lis1 := h.lis'; have a_pre := h.pre; have a_nochild := h.nochild; have a_succ := h.succ; have a_ret := h.ret; clear h; simp only [Pa.open, Pa.last, Pipe.connect, Pipe.send, upd_eq] at *; grind
  case sec => have a_sec := h.sec; clear h; simp only [Pa.open, Pa.last, Pipe.connect, Pipe.send, upd_eq] at *; grind
  case old => have a_old := h.old; clear h; simp only [Pa.open, Pa.last, Pipe.connect, Pipe.send, upd_eq] at *; grind
  case ena => have a_ena := h.ena; have a_old := h.old; clear h; simp only [Pa.open, Pa.last, Pipe.connect, Pipe.send, upd_eq] at *; grind
  case ret => have a_ret := h.ret; clear h; simp only [Pa.open, Pa.last, Pipe.connect, Pipe.send, upd_eq] at *; grind
  case succ => have a_succ := h.succ; clear h; simp only [Pa.open, Pa.last, Pipe.connect, Pipe.send, upd_eq] at *; grind
  case join => have a_join := h.join; have a_ret := h.ret; have a_succ := h.succ; clear h; simp only [Pa.open, Pa.last, Pipe.connect, Pipe.send, upd_eq] at *; grind
  case fault => have a_fault := h.fault; have a_ret := h.ret; have a_nochild := h.nochild; have a_join := h.join; have a_succ := h.succ; clear h; simp only [Pa.open, Pa.last, Pipe.connect, Pipe.send, upd_eq] at *; grind
  case same => have a_same := h.same; have a_succ := h.succ; have a_join := h.join; clear h; simp only [Pa.open, Pa.last, Pipe.connect, Pipe.send, upd_eq] at *; grind
  case pre => have a_pre := h.pre; clear h; simp only [Pa.open, Pa.last, Pipe.connect, Pipe.send, upd_eq] at *; grind
  case nochild => have a_nochild := h.nochild; clear h; simp only [Pa.open, Pa.last, Pipe.connect, Pipe.send, upd_eq] at *; grind
  case fd0neg => have a_fd0neg := h.fd0neg; have a_ok1 := h.ok'; clear h; simp only [Pa.open, Pa.last, Pipe.connect, Pipe.send, upd_eq] at *; grind
  case fd1neg => have a_fd1neg := h.fd1neg; clear h; simp only [Pa.open, Pa.last, Pipe.connect, Pipe.send, upd_eq] at *; grind
  case lis => have a_lis := h.lis; have a_lis1 := h.lis'; have a_pre := h.pre; clear h; simp only [Pa.open, Pa.last, Pipe.connect, Pipe.send, upd_eq] at *; grind
  case lis' => have a_lis1 := h.lis'; have a_lis := h.lis; have a_pre := h.pre; have a_near := h.near; have a_far := h.far; clear h; simp only [Pa.open, Pa.last, Pipe.connect, Pipe.send, upd_eq] at *; grind
  case near => have a_near := h.near; have a_fault := h.fault; have a_pre := h.pre; have a_nochild := h.nochild; have a_fd0neg := h.fd0neg; have a_zero := h.zero; have a_as := h.as; have a_wr := h.wr; have a_lis1 := h.lis'; have a_succ := h.succ; clear h; simp only [Pa.open, Pa.last, Pipe.connect, Pipe.send, upd_eq] at *; grind
  case mine => have a_mine := h.mine; have a_nochild := h.nochild; have a_wr := h.wr; have a_as := h.as; have a_near := h.near; have a_zero := h.zero; have a_fd0neg := h.fd0neg; have a_ok1 := h.ok'; have a_succ := h.succ; have a_join := h.join; have a_lis1 := h.lis'; have a_far1 := h.far'; clear h; simp only [Pa.open, Pa.last, Pipe.connect, Pipe.send, upd_eq] at *; grind
  case wr => have a_wr := h.wr; have a_lis1 := h.lis'; have a_sec := h.sec; have a_near := h.near; have a_far := h.far; have a_far1 := h.far'; clear h; simp only [Pa.open, Pa.last, Pipe.connect, Pipe.send, upd_eq] at *; grind
  case as => have a_as := h.as; have a_lis1 := h.lis'; have a_wr := h.wr; have a_near := h.near; have a_far := h.far; have a_far1 := h.far'; clear h; simp only [Pa.open, Pa.last, Pipe.connect, Pipe.send, upd_eq] at *; grind
  case zero => have a_zero := h.zero; have a_as := h.as; have a_lis1 := h.lis'; have a_far1 := h.far'; have a_near := h.near; have a_fd0neg := h.fd0neg; have a_ok1 := h.ok'; have a_far := h.far; clear h; simp only [Pa.open, Pa.last, Pipe.connect, Pipe.send, upd_eq] at *; grind
  case pref => have a_pref := h.pref; have a_wr := h.wr; have a_near := h.near; clear h; simp only [Pa.open, Pa.last, Pipe.connect, Pipe.send, upd_eq] at *; grind
  case dead => have a_dead := h.dead; have a_near := h.near; clear h; simp only [Pa.open, Pa.last, Pipe.connect, Pipe.send, upd_eq] at *; grind
  case far => have a_far := h.far; have a_pre := h.pre; have a_queue := h.queue; have a_far1 := h.far'; have a_near := h.near; have a_lis1 := h.lis'; have a_succ := h.succ; have a_join := h.join; have a_ok := h.ok; have a_ok1 := h.ok'; have a_fd1neg := h.fd1neg; have a_ret := h.ret; clear h; simp only [Pa.open, Pa.last, Pipe.connect, Pipe.send, upd_eq] at *; grind
  case far' => have a_far1 := h.far'; have a_near := h.near; have a_zero := h.zero; have a_lis1 := h.lis'; have a_ok1 := h.ok'; have a_pre := h.pre; have a_ok := h.ok; have a_rd := h.rd; have a_far := h.far; clear h; simp only [Pa.open, Pa.last, Pipe.connect, Pipe.send, upd_eq] at *; grind
  case rd => have a_rd := h.rd; clear h; simp only [Pa.open, Pa.last, Pipe.connect, Pipe.send, upd_eq] at *; grind
  case data => have a_data := h.data; have a_near := h.near; clear h; simp only [Pa.open, Pa.last, Pipe.connect, Pipe.send, upd_eq] at *; grind
  case queue => have a_queue := h.queue; clear h; simp only [Pa.open, Pa.last, Pipe.connect, Pipe.send, upd_eq] at *; grind
  case ok => have a_ok := h.ok; have a_data := h.data; have a_pref := h.pref; have a_far := h.far; have a_far1 := h.far'; have a_rd := h.rd; have a_sec := h.sec; have a_lis1 := h.lis'; have a_near := h.near; have a_succ := h.succ; have a_fd1neg := h.fd1neg; clear h; simp only [Pa.open, Pa.last, Pipe.connect, Pipe.send, upd_eq] at *; grind
  case ok' => have a_ok1 := h.ok'; have a_ok := h.ok; have a_far := h.far; have a_near := h.near; have a_lis1 := h.lis'; have a_zero := h.zero; have a_succ := h.succ; have a_join := h.join; clear h; simp only [Pa.open, Pa.last, Pipe.connect, Pipe.send, upd_eq] at *; grind

theorem Inv.readOk_step {secret : List UInt8} {p : Int × Int} {e0 : Bool} {s s' : S} (hl : secret.length = 8) (h : Inv secret p e0 s) (hs : Pipe.step s (.readOk) = some s') : Inv secret p e0 s' := by
  simp only [Pipe.step, Option.ite_none_right_eq_some] at hs
  obtain ⟨hc, hs⟩ := hs
  obtain ⟨c, hfc⟩ := h.far' (by rw [hc]; decide) (by have := h.rd hc; omega)
  have : connOf s s.fd1.toNat = some c := by simp [connOf, hfc]
  rw [this] at hs
  simp only [Option.ite_none_left_eq_some, Option.some.injEq] at hs
  obtain ⟨_, rfl⟩ := hs
  constructor
  case lnz => have a_lnz := h.lnz; have a_lis1 := h.lis'; have a_pre := h.pre; have a_nochild := h.nochild; have a_succ := h.succ; have a_ret := h.ret; clear h; simp only [Pa.open, Pa.last, Pipe.connect, Pipe.send, upd_eq] at *; grind
  case sec => have a_sec := h.sec; clear h; simp only [Pa.open, Pa.last, Pipe.connect, Pipe.send, upd_eq] at *; grind
  case old => have a_old := h.old; clear h; simp only [Pa.open, Pa.last, Pipe.connect, Pipe.send, upd_eq] at *; grind
  case ena => have a_ena := h.ena; have a_old := h.old; clear h; simp only [Pa.open, Pa.last, Pipe.connect, Pipe.send, upd_eq] at *; grind
  case ret => have a_ret := h.ret; clear h; simp only [Pa.open, Pa.last, Pipe.connect, Pipe.send, upd_eq] at *; grind
  case succ => have a_succ := h.succ; clear h; simp only [Pa.open, Pa.last, Pipe.connect, Pipe.send, upd_eq] at *; grind
  case join => have a_join := h.join; have a_ret := h.ret; have a_succ := h.succ; clear h; simp only [Pa.open, Pa.last, Pipe.connect, Pipe.send, upd_eq] at *; grind
  case fault => have a_fault := h.fault; have a_ret := h.ret; have a_nochild := h.nochild; have a_join := h.join; have a_succ := h.succ; clear h; simp only [Pa.open, Pa.last, Pipe.connect, Pipe.send, upd_eq] at *; grind
  case same => have a_same := h.same; have a_succ := h.succ; have a_join := h.join; clear h; simp only [Pa.open, Pa.last, Pipe.connect, Pipe.send, upd_eq] at *; grind
  case pre => have a_pre := h.pre; clear h; simp only [Pa.open, Pa.last, Pipe.connect, Pipe.send, upd_eq] at *; grind
  case nochild => have a_nochild := h.nochild; clear h; simp only [Pa.open, Pa.last, Pipe.connect, Pipe.send, upd_eq] at *; grind
  case fd0neg => have a_fd0neg := h.fd0neg; have a_ok1 := h.ok'; clear h; simp only [Pa.open, Pa.last, Pipe.connect, Pipe.send, upd_eq] at *; grind
  case fd1neg => have a_fd1neg := h.fd1neg; clear h; simp only [Pa.open, Pa.last, Pipe.connect, Pipe.send, upd_eq] at *; grind
  case lis => have a_lis := h.lis; have a_lis1 := h.lis'; have a_pre := h.pre; clear h; simp only [Pa.open, Pa.last, Pipe.connect, Pipe.send, upd_eq] at *; grind
  case lis' => have a_lis1 := h.lis'; have a_lis := h.lis; have a_pre := h.pre; have a_near := h.near; have a_far := h.far; clear h; simp only [Pa.open, Pa.last, Pipe.connect, Pipe.send, upd_eq] at *; grind
  case near => have a_near := h.near; have a_fault := h.fault; have a_pre := h.pre; have a_nochild := h.nochild; have a_fd0neg := h.fd0neg; have a_zero := h.zero; have a_as := h.as; have a_wr := h.wr; have a_lis1 := h.lis'; have a_succ := h.succ; clear h; simp only [Pa.open, Pa.last, Pipe.connect, Pipe.send, upd_eq] at *; grind
  case mine => have a_mine := h.mine; have a_nochild := h.nochild; have a_wr := h.wr; have a_as := h.as; have a_near := h.near; have a_zero := h.zero; have a_fd0neg := h.fd0neg; have a_ok1 := h.ok'; have a_succ := h.succ; have a_join := h.join; have a_lis1 := h.lis'; have a_far1 := h.far'; clear h; simp only [Pa.open, Pa.last, Pipe.connect, Pipe.send, upd_eq] at *; grind
  case wr => have a_wr := h.wr; have a_lis1 := h.lis'; have a_sec := h.sec; have a_near := h.near; have a_far := h.far; have a_far1 := h.far'; clear h; simp only [Pa.open, Pa.last, Pipe.connect, Pipe.send, upd_eq] at *; grind
  case as => have a_as := h.as; have a_lis1 := h.lis'; have a_wr := h.wr; have a_near := h.near; have a_far := h.far; have a_far1 := h.far'; clear h; simp only [Pa.open, Pa.last, Pipe.connect, Pipe.send, upd_eq] at *; grind
  case zero => have a_zero := h.zero; have a_as := h.as; have a_lis1 := h.lis'; have a_far1 := h.far'; have a_near := h.near; have a_fd0neg := h.fd0neg; have a_ok1 := h.ok'; have a_far := h.far; clear h; simp only [Pa.open, Pa.last, Pipe.connect, Pipe.send, upd_eq] at *; grind
  case pref => have a_pref := h.pref; have a_wr := h.wr; have a_near := h.near; clear h; simp only [Pa.open, Pa.last, Pipe.connect, Pipe.send, upd_eq] at *; grind
  case dead => have a_dead := h.dead; have a_near := h.near; clear h; simp only [Pa.open, Pa.last, Pipe.connect, Pipe.send, upd_eq] at *; grind
  case far => have a_far := h.far; have a_pre := h.pre; have a_queue := h.queue; have a_far1 := h.far'; have a_near := h.near; have a_lis1 := h.lis'; have a_succ := h.succ; have a_join := h.join; have a_ok := h.ok; have a_ok1 := h.ok'; have a_fd1neg := h.fd1neg; have a_ret := h.ret; clear h; simp only [Pa.open, Pa.last, Pipe.connect, Pipe.send, upd_eq] at *; grind
  case far' => have a_far1 := h.far'; have a_near := h.near; have a_zero := h.zero; have a_lis1 := h.lis'; have a_ok1 := h.ok'; have a_pre := h.pre; have a_ok := h.ok; have a_rd := h.rd; have a_far := h.far; clear h; simp only [Pa.open, Pa.last, Pipe.connect, Pipe.send, upd_eq] at *; grind
  case rd => have a_rd := h.rd; clear h; simp only [Pa.open, Pa.last, Pipe.connect, Pipe.send, upd_eq] at *; grind
  case data => have a_data := h.data; have a_near := h.near; clear h; simp only [Pa.open, Pa.last, Pipe.connect, Pipe.send, upd_eq] at *; grind
  case queue => have a_queue := h.queue; clear h; simp only [Pa.open, Pa.last, Pipe.connect, Pipe.send, upd_eq] at *; grind
  case ok => have a_ok := h.ok; have a_data := h.data; have a_pref := h.pref; have a_far := h.far; have a_far1 := h.far'; have a_rd := h.rd; have a_sec := h.sec; have a_lis1 := h.lis'; have a_near := h.near; have a_succ := h.succ; have a_fd1neg := h.fd1neg; clear h; simp only [Pa.open, Pa.last, Pipe.connect, Pipe.send, upd_eq] at *; grind
  case ok' => have a_ok1 := h.ok'; have a_ok := h.ok; have a_far := h.far; have a_near := h.near; have a_lis1 := h.lis'; have a_zero := h.zero; have a_succ := h.succ; have a_join := h.join; clear h; simp only [Pa.open, Pa.last, Pipe.connect, Pipe.send, upd_eq] at *; grind

theorem Inv.readErr_step {secret : List UInt8} {p : Int × Int} {e0 : Bool} {s s' : S} {e : Int} (hl : secret.length = 8) (h : Inv secret p e0 s) (hs : Pipe.step s (.readErr e) = some s') : Inv secret p e0 s' := by
  simp only [Pipe.step, Option.ite_none_right_eq_some, Option.some.injEq] at hs
  obtain ⟨hc, rfl⟩ := hs
  constructor
  case lnz => have a_lnz := h.lnz; have a_lis1 := h.lis'; have a_pre := h.pre; have a_nochild := h.nochild; have a_succ := h.succ; have a_ret := h.ret; clear h; simp only [Pa.open, Pa.last, Pipe.connect, Pipe.send, upd_eq] at *; grind
  case sec => have a_sec := h.sec; clear h; simp only [Pa.open, Pa.last, Pipe.connect, Pipe.send, upd_eq] at *; grind
  case old => have a_old := h.old; clear h; simp only [Pa.open, Pa.last, Pipe.connect, Pipe.send, upd_eq] at *; grind
  case ena => have a_ena := h.ena; have a_old := h.old; clear h; simp only [Pa.open, Pa.last, Pipe.connect, Pipe.send, upd_eq] at *; grind
  case ret => have a_ret := h.ret; clear h; simp only [Pa.open, Pa.last, Pipe.connect, Pipe.send, upd_eq] at *; grind
  case succ => have a_succ := h.succ; clear h; simp only [Pa.open, Pa.last, Pipe.connect, Pipe.send, upd_eq] at *; grind
  case join => have a_join := h.join; have a_ret := h.ret; have a_succ := h.succ; clear h; simp only [Pa.open, Pa.last, Pipe.connect, Pipe.send, upd_eq] at *; grind
  case fault => have a_fault := h.fault; have a_ret := h.ret; have a_nochild := h.nochild; have a_join := h.join; have a_succ := h.succ; clear h; simp only [Pa.open, Pa.last, Pipe.connect, Pipe.send, upd_eq] at *; grind
  case same => have a_same := h.same; have a_succ := h.succ; have a_join := h.join; clear h; simp only [Pa.open, Pa.last, Pipe.connect, Pipe.send, upd_eq] at *; grind
  case pre => have a_pre := h.pre; clear h; simp only [Pa.open, Pa.last, Pipe.connect, Pipe.send, upd_eq] at *; grind
  case nochild => have a_nochild := h.nochild; clear h; simp only [Pa.open, Pa.last, Pipe.connect, Pipe.send, upd_eq] at *; grind
  case fd0neg => have a_fd0neg := h.fd0neg; have a_ok1 := h.ok'; clear h; simp only [Pa.open, Pa.last, Pipe.connect, Pipe.send, upd_eq] at *; grind
  case fd1neg => have a_fd1neg := h.fd1neg; clear h; simp only [Pa.open, Pa.last, Pipe.connect, Pipe.send, upd_eq] at *; grind
  case lis => have a_lis := h.lis; have a_lis1 := h.lis'; have a_pre := h.pre; clear h; simp only [Pa.open, Pa.last, Pipe.connect, Pipe.send, upd_eq] at *; grind
  case lis' => have a_lis1 := h.lis'; have a_lis := h.lis; have a_pre := h.pre; have a_near := h.near; have a_far := h.far; clear h; simp only [Pa.open, Pa.last, Pipe.connect, Pipe.send, upd_eq] at *; grind
  case near => have a_near := h.near; have a_fault := h.fault; have a_pre := h.pre; have a_nochild := h.nochild; have a_fd0neg := h.fd0neg; have a_zero := h.zero; have a_as := h.as; have a_wr := h.wr; have a_lis1 := h.lis'; have a_succ := h.succ; clear h; simp only [Pa.open, Pa.last, Pipe.connect, Pipe.send, upd_eq] at *; grind
  case mine => have a_mine := h.mine; have a_nochild := h.nochild; have a_wr := h.wr; have a_as := h.as; have a_near := h.near; have a_zero := h.zero; have a_fd0neg := h.fd0neg; have a_ok1 := h.ok'; have a_succ := h.succ; have a_join := h.join; have a_lis1 := h.lis'; have a_far1 := h.far'; clear h; simp only [Pa.open, Pa.last, Pipe.connect, Pipe.send, upd_eq] at *; grind
  case wr => have a_wr := h.wr; have a_lis1 := h.lis'; have a_sec := h.sec; have a_near := h.near; have a_far := h.far; have a_far1 := h.far'; clear h; simp only [Pa.open, Pa.last, Pipe.connect, Pipe.send, upd_eq] at *; grind
  case as => have a_as := h.as; have a_lis1 := h.lis'; have a_wr := h.wr; have a_near := h.near; have a_far := h.far; have a_far1 := h.far'; clear h; simp only [Pa.open, Pa.last, Pipe.connect, Pipe.send, upd_eq] at *; grind
  case zero => have a_zero := h.zero; have a_as := h.as; have a_lis1 := h.lis'; have a_far1 := h.far'; have a_near := h.near; have a_fd0neg := h.fd0neg; have a_ok1 := h.ok'; have a_far := h.far; clear h; simp only [Pa.open, Pa.last, Pipe.connect, Pipe.send, upd_eq] at *; grind
  case pref => have a_pref := h.pref; have a_wr := h.wr; have a_near := h.near; clear h; simp only [Pa.open, Pa.last, Pipe.connect, Pipe.send, upd_eq] at *; grind
  case dead => have a_dead := h.dead; have a_near := h.near; clear h; simp only [Pa.open, Pa.last, Pipe.connect, Pipe.send, upd_eq] at *; grind
  case far => have a_far := h.far; have a_pre := h.pre; have a_queue := h.queue; have a_far1 := h.far'; have a_near := h.near; have a_lis1 := h.lis'; have a_succ := h.succ; have a_join := h.join; have a_ok := h.ok; have a_ok1 := h.ok'; have a_fd1neg := h.fd1neg; have a_ret := h.ret; clear h; simp only [Pa.open, Pa.last, Pipe.connect, Pipe.send, upd_eq] at *; grind
  case far' => have a_far1 := h.far'; have a_near := h.near; have a_zero := h.zero; have a_lis1 := h.lis'; have a_ok1 := h.ok'; have a_pre := h.pre; have a_ok := h.ok; have a_rd := h.rd; have a_far := h.far; clear h; simp only [Pa.open, Pa.last, Pipe.connect, Pipe.send, upd_eq] at *; grind
  case rd => have a_rd := h.rd; clear h; simp only [Pa.open, Pa.last, Pipe.connect, Pipe.send, upd_eq] at *; grind
  case data => have a_data := h.data; have a_near := h.near; clear h; simp only [Pa.open, Pa.last, Pipe.connect, Pipe.send, upd_eq] at *; grind
  case queue => have a_queue := h.queue; clear h; simp only [Pa.open, Pa.last, Pipe.connect, Pipe.send, upd_eq] at *; grind
  case ok => have a_ok := h.ok; have a_data := h.data; have a_pref := h.pref; have a_far := h.far; have a_far1 := h.far'; have a_rd := h.rd; have a_sec := h.sec; have a_lis1 := h.lis'; have a_near := h.near; have a_succ := h.succ; have a_fd1neg := h.fd1neg; clear h; simp only [Pa.open, Pa.last, Pipe.connect, Pipe.send, upd_eq] at *; grind
  case ok' => have a_ok1 := h.ok'; have a_ok := h.ok; have a_far := h.far; have a_near := h.near; have a_lis1 := h.lis'; have a_zero := h.zero; have a_succ := h.succ; have a_join := h.join; clear h; simp only [Pa.open, Pa.last, Pipe.connect, Pipe.send, upd_eq] at *; grind

theorem Inv.closeLn_step {secret : List UInt8} {p : Int × Int} {e0 : Bool} {s s' : S} (hl : secret.length = 8) (h : Inv secret p e0 s) (hs : Pipe.step s (.closeLn) = some s') : Inv secret p e0 s' := by
  simp only [Pipe.step, Option.ite_none_right_eq_some, Option.some.injEq] at hs
  obtain ⟨hc, rfl⟩ := hs
  rw [close_ln h hc]
  constructor
  case lnz => have a_lnz := h.lnz; have a_lis1 := h.lis'; have a_pre := h.pre; have a_nochild := h.nochild; have a_succ := h.succ; have a_ret := h.ret; clear h; simp only [Pa.open, Pa.last, Pipe.connect, Pipe.send, upd_eq] at *; grind
  case sec => have a_sec := h.sec; clear h; simp only [Pa.open, Pa.last, Pipe.connect, Pipe.send, upd_eq] at *; grind
  case old => have a_old := h.old; clear h; simp only [Pa.open, Pa.last, Pipe.connect, Pipe.send, upd_eq] at *; grind
  case ena => have a_ena := h.ena; have a_old := h.old; clear h; simp only [Pa.open, Pa.last, Pipe.connect, Pipe.send, upd_eq] at *; grind
  case ret => have a_ret := h.ret; clear h; simp only [Pa.open, Pa.last, Pipe.connect, Pipe.send, upd_eq] at *; grind
  case succ => have a_succ := h.succ; clear h; simp only [Pa.open, Pa.last, Pipe.connect, Pipe.send, upd_eq] at *; grind
  case join => have a_join := h.join; have a_ret := h.ret; have a_succ := h.succ; clear h; simp only [Pa.open, Pa.last, Pipe.connect, Pipe.send, upd_eq] at *; grind
  case fault => have a_fault := h.fault; have a_ret := h.ret; have a_nochild := h.nochild; have a_join := h.join; have a_succ := h.succ; clear h; simp only [Pa.open, Pa.last, Pipe.connect, Pipe.send, upd_eq] at *; grind
  case same => have a_same := h.same; have a_succ := h.succ; have a_join := h.join; clear h; simp only [Pa.open, Pa.last, Pipe.connect, Pipe.send, upd_eq] at *; grind
  case pre => have a_pre := h.pre; clear h; simp only [Pa.open, Pa.last, Pipe.connect, Pipe.send, upd_eq] at *; grind
  case nochild => have a_nochild := h.nochild; clear h; simp only [Pa.open, Pa.last, Pipe.connect, Pipe.send, upd_eq] at *; grind
  case fd0neg => have a_fd0neg := h.fd0neg; have a_ok1 := h.ok'; clear h; simp only [Pa.open, Pa.last, Pipe.connect, Pipe.send, upd_eq] at *; grind
  case fd1neg => have a_fd1neg := h.fd1neg; clear h; simp only [Pa.open, Pa.last, Pipe.connect, Pipe.send, upd_eq] at *; grind
  case lis => have a_lis := h.lis; have a_lis1 := h.lis'; have a_pre := h.pre; clear h; simp only [Pa.open, Pa.last, Pipe.connect, Pipe.send, upd_eq] at *; grind
  case lis' => have a_lis1 := h.lis'; have a_lis := h.lis; have a_pre := h.pre; have a_near := h.near; have a_far := h.far; clear h; simp only [Pa.open, Pa.last, Pipe.connect, Pipe.send, upd_eq] at *; grind
  case near => have a_near := h.near; have a_fault := h.fault; have a_pre := h.pre; have a_nochild := h.nochild; have a_fd0neg := h.fd0neg; have a_zero := h.zero; have a_as := h.as; have a_wr := h.wr; have a_lis1 := h.lis'; have a_succ := h.succ; clear h; simp only [Pa.open, Pa.last, Pipe.connect, Pipe.send, upd_eq] at *; grind
  case mine => have a_mine := h.mine; have a_lis1 := h.lis'; have a_succ := h.succ; have a_join := h.join; have a_ret := h.ret; clear h; simp only [Pa.open, Pa.last, Pipe.connect, Pipe.send, upd_eq] at *; grind
  case wr => have a_wr := h.wr; have a_lis1 := h.lis'; have a_sec := h.sec; have a_near := h.near; have a_far := h.far; have a_far1 := h.far'; clear h; simp only [Pa.open, Pa.last, Pipe.connect, Pipe.send, upd_eq] at *; grind
  case as => have a_as := h.as; have a_lis1 := h.lis'; have a_wr := h.wr; have a_near := h.near; have a_far := h.far; have a_far1 := h.far'; clear h; simp only [Pa.open, Pa.last, Pipe.connect, Pipe.send, upd_eq] at *; grind
  case zero => have a_zero := h.zero; have a_as := h.as; have a_lis1 := h.lis'; have a_far1 := h.far'; have a_near := h.near; have a_fd0neg := h.fd0neg; have a_ok1 := h.ok'; have a_far := h.far; clear h; simp only [Pa.open, Pa.last, Pipe.connect, Pipe.send, upd_eq] at *; grind
  case pref => have a_pref := h.pref; have a_wr := h.wr; have a_near := h.near; clear h; simp only [Pa.open, Pa.last, Pipe.connect, Pipe.send, upd_eq] at *; grind
  case dead => have a_dead := h.dead; have a_near := h.near; clear h; simp only [Pa.open, Pa.last, Pipe.connect, Pipe.send, upd_eq] at *; grind
  case far => have a_far := h.far; have a_pre := h.pre; have a_queue := h.queue; have a_far1 := h.far'; have a_near := h.near; have a_lis1 := h.lis'; have a_succ := h.succ; have a_join := h.join; have a_ok := h.ok; have a_ok1 := h.ok'; have a_fd1neg := h.fd1neg; have a_ret := h.ret; clear h; simp only [Pa.open, Pa.last, Pipe.connect, Pipe.send, upd_eq] at *; grind
  case far' => have a_far1 := h.far'; have a_near := h.near; have a_zero := h.zero; have a_lis1 := h.lis'; have a_ok1 := h.ok'; have a_pre := h.pre; have a_ok := h.ok; have a_rd := h.rd; have a_far := h.far; clear h; simp only [Pa.open, Pa.last, Pipe.connect, Pipe.send, upd_eq] at *; grind
  case rd => have a_rd := h.rd; clear h; simp only [Pa.open, Pa.last, Pipe.connect, Pipe.send, upd_eq] at *; grind
  case data => have a_data := h.data; have a_near := h.near; clear h; simp only [Pa.open, Pa.last, Pipe.connect, Pipe.send, upd_eq] at *; grind
  case queue => have a_queue := h.queue; clear h; simp only [Pa.open, Pa.last, Pipe.connect, Pipe.send, upd_eq] at *; grind
  case ok => have a_ok := h.ok; have a_data := h.data; have a_pref := h.pref; have a_far := h.far; have a_far1 := h.far'; have a_rd := h.rd; have a_sec := h.sec; have a_lis1 := h.lis'; have a_near := h.near; have a_succ := h.succ; have a_fd1neg := h.fd1neg; clear h; simp only [Pa.open, Pa.last, Pipe.connect, Pipe.send, upd_eq] at *; grind
  case ok' => have a_ok1 := h.ok'; have a_ok := h.ok; have a_far := h.far; have a_near := h.near; have a_lis1 := h.lis'; have a_zero := h.zero; have a_succ := h.succ; have a_join := h.join; clear h; simp only [Pa.open, Pa.last, Pipe.connect, Pipe.send, upd_eq] at *; grind

theorem Inv.joined_step {secret : List UInt8} {p : Int × Int} {e0 : Bool} {s s' : S} (hl : secret.length = 8) (h : Inv secret p e0 s) (hs : Pipe.step s (.joined) = some s') : Inv secret p e0 s' := by
  simp only [Pipe.step, Option.ite_none_right_eq_some, Option.some.injEq] at hs
  obtain ⟨hc, rfl⟩ := hs
  constructor
  case lnz => have a_lnz := h.lnz; have a_lis1 := h.lis'; have a_pre := h.pre; have a_nochild := h.nochild; have a_succ := h.succ; have a_ret := h.ret; clear h; simp only [Pa.open, Pa.last, Pipe.connect, Pipe.send, upd_eq] at *; grind
  case sec => have a_sec := h.sec; clear h; simp only [Pa.open, Pa.last, Pipe.connect, Pipe.send, upd_eq] at *; grind
  case old => have a_old := h.old; clear h; simp only [Pa.open, Pa.last, Pipe.connect, Pipe.send, upd_eq] at *; grind
  case ena => have a_ena := h.ena; have a_old := h.old; clear h; simp only [Pa.open, Pa.last, Pipe.connect, Pipe.send, upd_eq] at *; grind
  case ret => have a_ret := h.ret; clear h; simp only [Pa.open, Pa.last, Pipe.connect, Pipe.send, upd_eq] at *; grind
  case succ => have a_succ := h.succ; clear h; simp only [Pa.open, Pa.last, Pipe.connect, Pipe.send, upd_eq] at *; grind
  case join => have a_join := h.join; have a_ret := h.ret; have a_succ := h.succ; clear h; simp only [Pa.open, Pa.last, Pipe.connect, Pipe.send, upd_eq] at *; grind
  case fault => have a_fault := h.fault; have a_ret := h.ret; have a_nochild := h.nochild; have a_join := h.join; have a_succ := h.succ; clear h; simp only [Pa.open, Pa.last, Pipe.connect, Pipe.send, upd_eq] at *; grind
  case same => have a_same := h.same; have a_succ := h.succ; have a_join := h.join; clear h; simp only [Pa.open, Pa.last, Pipe.connect, Pipe.send, upd_eq] at *; grind
  case pre => have a_pre := h.pre; clear h; simp only [Pa.open, Pa.last, Pipe.connect, Pipe.send, upd_eq] at *; grind
  case nochild => have a_nochild := h.nochild; clear h; simp only [Pa.open, Pa.last, Pipe.connect, Pipe.send, upd_eq] at *; grind
  case fd0neg => have a_fd0neg := h.fd0neg; have a_ok1 := h.ok'; clear h; simp only [Pa.open, Pa.last, Pipe.connect, Pipe.send, upd_eq] at *; grind
  case fd1neg => have a_fd1neg := h.fd1neg; clear h; simp only [Pa.open, Pa.last, Pipe.connect, Pipe.send, upd_eq] at *; grind
  case lis => have a_lis := h.lis; have a_lis1 := h.lis'; have a_pre := h.pre; clear h; simp only [Pa.open, Pa.last, Pipe.connect, Pipe.send, upd_eq] at *; grind
  case lis' => have a_lis1 := h.lis'; have a_lis := h.lis; have a_pre := h.pre; have a_near := h.near; have a_far := h.far; clear h; simp only [Pa.open, Pa.last, Pipe.connect, Pipe.send, upd_eq] at *; grind
  case near => have a_near := h.near; have a_join := h.join; clear h; simp only [Pa.open, Pa.last, Pipe.connect, Pipe.send, upd_eq] at *; grind
  case mine => have a_mine := h.mine; have a_nochild := h.nochild; have a_wr := h.wr; have a_as := h.as; have a_near := h.near; have a_zero := h.zero; have a_fd0neg := h.fd0neg; have a_ok1 := h.ok'; have a_succ := h.succ; have a_join := h.join; have a_lis1 := h.lis'; have a_far1 := h.far'; clear h; simp only [Pa.open, Pa.last, Pipe.connect, Pipe.send, upd_eq] at *; grind
  case wr => have a_wr := h.wr; have a_lis1 := h.lis'; have a_sec := h.sec; have a_near := h.near; have a_far := h.far; have a_far1 := h.far'; clear h; simp only [Pa.open, Pa.last, Pipe.connect, Pipe.send, upd_eq] at *; grind
  case as => have a_as := h.as; have a_lis1 := h.lis'; have a_wr := h.wr; have a_near := h.near; have a_far := h.far; have a_far1 := h.far'; clear h; simp only [Pa.open, Pa.last, Pipe.connect, Pipe.send, upd_eq] at *; grind
  case zero => have a_zero := h.zero; have a_as := h.as; have a_lis1 := h.lis'; have a_far1 := h.far'; have a_near := h.near; have a_fd0neg := h.fd0neg; have a_ok1 := h.ok'; have a_far := h.far; clear h; simp only [Pa.open, Pa.last, Pipe.connect, Pipe.send, upd_eq] at *; grind
  case pref => have a_pref := h.pref; have a_wr := h.wr; have a_near := h.near; clear h; simp only [Pa.open, Pa.last, Pipe.connect, Pipe.send, upd_eq] at *; grind
  case dead => have a_dead := h.dead; have a_near := h.near; clear h; simp only [Pa.open, Pa.last, Pipe.connect, Pipe.send, upd_eq] at *; grind
  case far => have a_far := h.far; have a_pre := h.pre; have a_queue := h.queue; have a_far1 := h.far'; have a_near := h.near; have a_lis1 := h.lis'; have a_succ := h.succ; have a_join := h.join; have a_ok := h.ok; have a_ok1 := h.ok'; have a_fd1neg := h.fd1neg; have a_ret := h.ret; clear h; simp only [Pa.open, Pa.last, Pipe.connect, Pipe.send, upd_eq] at *; grind
  case far' => have a_far1 := h.far'; have a_near := h.near; have a_zero := h.zero; have a_lis1 := h.lis'; have a_ok1 := h.ok'; have a_pre := h.pre; have a_ok := h.ok; have a_rd := h.rd; have a_far := h.far; clear h; simp only [Pa.open, Pa.last, Pipe.connect, Pipe.send, upd_eq] at *; grind
  case rd => have a_rd := h.rd; clear h; simp only [Pa.open, Pa.last, Pipe.connect, Pipe.send, upd_eq] at *; grind
  case data => have a_data := h.data; have a_near := h.near; clear h; simp only [Pa.open, Pa.last, Pipe.connect, Pipe.send, upd_eq] at *; grind
  case queue => have a_queue := h.queue; clear h; simp only [Pa.open, Pa.last, Pipe.connect, Pipe.send, upd_eq] at *; grind
  case ok => have a_ok := h.ok; have a_data := h.data; have a_pref := h.pref; have a_far := h.far; have a_far1 := h.far'; have a_rd := h.rd; have a_sec := h.sec; have a_lis1 := h.lis'; have a_near := h.near; have a_succ := h.succ; have a_fd1neg := h.fd1neg; clear h; simp only [Pa.open, Pa.last, Pipe.connect, Pipe.send, upd_eq] at *; grind
  case ok' => have a_ok1 := h.ok'; have a_ok := h.ok; have a_far := h.far; have a_near := h.near; have a_lis1 := h.lis'; have a_zero := h.zero; have a_succ := h.succ; have a_join := h.join; clear h; simp only [Pa.open, Pa.last, Pipe.connect, Pipe.send, upd_eq] at *; grind

theorem Inv.closeFds_step {secret : List UInt8} {p : Int × Int} {e0 : Bool} {s s' : S} (hl : secret.length = 8) (h : Inv secret p e0 s) (hs : Pipe.step s (.closeFds) = some s') : Inv secret p e0 s' := by
  simp only [Pipe.step, Option.ite_none_right_eq_some, Option.some.injEq] at hs
  obtain ⟨hc, rfl⟩ := hs
  obtain ⟨f, hf, hcl⟩ := close_fds h (by rw [hc]; decide)
  rw [hcl]
  constructor
  case lnz => have a_lnz := h.lnz; have a_lis1 := h.lis'; have a_pre := h.pre; have a_nochild := h.nochild; have a_succ := h.succ; have a_ret := h.ret; clear h; simp only [Pa.open, Pa.last, Pipe.connect, Pipe.send, upd_eq] at *; grind
  case sec => have a_sec := h.sec; clear h; simp only [Pa.open, Pa.last, Pipe.connect, Pipe.send, upd_eq] at *; grind
  case old => have a_old := h.old; clear h; simp only [Pa.open, Pa.last, Pipe.connect, Pipe.send, upd_eq] at *; grind
  case ena => have a_ena := h.ena; have a_old := h.old; clear h; simp only [Pa.open, Pa.last, Pipe.connect, Pipe.send, upd_eq] at *; grind
  case ret => have a_ret := h.ret; clear h; simp only [Pa.open, Pa.last, Pipe.connect, Pipe.send, upd_eq] at *; grind
  case succ => have a_succ := h.succ; clear h; simp only [Pa.open, Pa.last, Pipe.connect, Pipe.send, upd_eq] at *; grind
  case join => have a_join := h.join; have a_ret := h.ret; have a_succ := h.succ; clear h; simp only [Pa.open, Pa.last, Pipe.connect, Pipe.send, upd_eq] at *; grind
  case fault => have a_fault := h.fault; have a_ret := h.ret; have a_nochild := h.nochild; have a_join := h.join; have a_succ := h.succ; clear h; simp only [Pa.open, Pa.last, Pipe.connect, Pipe.send, upd_eq] at *; grind
  case same => have a_same := h.same; have a_succ := h.succ; have a_join := h.join; clear h; simp only [Pa.open, Pa.last, Pipe.connect, Pipe.send, upd_eq] at *; grind
  case pre => have a_pre := h.pre; clear h; simp only [Pa.open, Pa.last, Pipe.connect, Pipe.send, upd_eq] at *; grind
  case nochild => have a_nochild := h.nochild; clear h; simp only [Pa.open, Pa.last, Pipe.connect, Pipe.send, upd_eq] at *; grind
  case fd0neg => have a_fd0neg := h.fd0neg; have a_ok1 := h.ok'; clear h; simp only [Pa.open, Pa.last, Pipe.connect, Pipe.send, upd_eq] at *; grind
  case fd1neg => have a_fd1neg := h.fd1neg; clear h; simp only [Pa.open, Pa.last, Pipe.connect, Pipe.send, upd_eq] at *; grind
  case lis => have a_lis := h.lis; have a_lis1 := h.lis'; have a_pre := h.pre; clear h; simp only [Pa.open, Pa.last, Pipe.connect, Pipe.send, upd_eq] at *; grind
  case lis' => have a_lis1 := h.lis'; have a_lis := h.lis; have a_pre := h.pre; have a_near := h.near; have a_far := h.far; clear h; simp only [Pa.open, Pa.last, Pipe.connect, Pipe.send, upd_eq] at *; grind
  case near => have a_near := h.near; clear h; simp only [Pa.open, Pa.last, Pipe.connect, Pipe.send, upd_eq] at *; grind
  case mine => have a_mine := h.mine; have a_nochild := h.nochild; have a_wr := h.wr; have a_as := h.as; have a_near := h.near; have a_zero := h.zero; have a_fd0neg := h.fd0neg; have a_ok1 := h.ok'; have a_succ := h.succ; have a_join := h.join; have a_lis1 := h.lis'; have a_far1 := h.far'; clear h; simp only [Pa.open, Pa.last, Pipe.connect, Pipe.send, upd_eq] at *; grind
  case wr => have a_wr := h.wr; have a_fd0neg := h.fd0neg; have a_far1 := h.far'; clear h; simp only [Pa.open, Pa.last, Pipe.connect, Pipe.send, upd_eq] at *; grind
  case as => have a_as := h.as; have a_fd0neg := h.fd0neg; have a_far1 := h.far'; clear h; simp only [Pa.open, Pa.last, Pipe.connect, Pipe.send, upd_eq] at *; grind
  case zero => have a_zero := h.zero; have a_as := h.as; have a_lis1 := h.lis'; have a_far1 := h.far'; have a_near := h.near; have a_fd0neg := h.fd0neg; have a_ok1 := h.ok'; have a_far := h.far; clear h; simp only [Pa.open, Pa.last, Pipe.connect, Pipe.send, upd_eq] at *; grind
  case pref => have a_pref := h.pref; have a_wr := h.wr; have a_near := h.near; clear h; simp only [Pa.open, Pa.last, Pipe.connect, Pipe.send, upd_eq] at *; grind
  case dead => have a_dead := h.dead; have a_near := h.near; clear h; simp only [Pa.open, Pa.last, Pipe.connect, Pipe.send, upd_eq] at *; grind
  case far => have a_far := h.far; clear h; simp only [Pa.open, Pa.last, Pipe.connect, Pipe.send, upd_eq] at *; grind
  case far' => have a_far1 := h.far'; have a_near := h.near; have a_zero := h.zero; have a_lis1 := h.lis'; have a_ok1 := h.ok'; have a_pre := h.pre; have a_ok := h.ok; have a_rd := h.rd; have a_far := h.far; clear h; simp only [Pa.open, Pa.last, Pipe.connect, Pipe.send, upd_eq] at *; grind
  case rd => have a_rd := h.rd; clear h; simp only [Pa.open, Pa.last, Pipe.connect, Pipe.send, upd_eq] at *; grind
  case data => have a_data := h.data; have a_near := h.near; clear h; simp only [Pa.open, Pa.last, Pipe.connect, Pipe.send, upd_eq] at *; grind
  case queue => have a_queue := h.queue; clear h; simp only [Pa.open, Pa.last, Pipe.connect, Pipe.send, upd_eq] at *; grind
  case ok => have a_ok := h.ok; have a_data := h.data; have a_pref := h.pref; have a_far := h.far; have a_far1 := h.far'; have a_rd := h.rd; have a_sec := h.sec; have a_lis1 := h.lis'; have a_near := h.near; have a_succ := h.succ; have a_fd1neg := h.fd1neg; clear h; simp only [Pa.open, Pa.last, Pipe.connect, Pipe.send, upd_eq] at *; grind
  case ok' => have a_ok1 := h.ok'; have a_ok := h.ok; have a_far := h.far; have a_near := h.near; have a_lis1 := h.lis'; have a_zero := h.zero; have a_succ := h.succ; have a_join := h.join; clear h; simp only [Pa.open, Pa.last, Pipe.connect, Pipe.send, upd_eq] at *; grind

theorem Inv.dialOk_step {secret : List UInt8} {p : Int × Int} {e0 : Bool} {s s' : S} {fd : Nat} (hl : secret.length = 8) (h : Inv secret p e0 s) (hs : Pipe.step s (.dialOk fd) = some s') : Inv secret p e0 s' := by
  simp only [Pipe.step, Option.ite_none_right_eq_some, Option.some.injEq] at hs
  obtain ⟨hc, rfl⟩ := hs
  constructor
  case lnz => have a_lnz := h.lnz; have a_lis1 := h.lis'; have a_pre := h.pre; have a_nochild := h.nochild; have a_succ := h.succ; have a_ret := h.ret; clear h; simp only [Pa.open, Pa.last, Pipe.connect, Pipe.send, upd_eq] at *; grind
  case sec => have a_sec := h.sec; clear h; simp only [Pa.open, Pa.last, Pipe.connect, Pipe.send, upd_eq] at *; grind
  case old => have a_old := h.old; clear h; simp only [Pa.open, Pa.last, Pipe.connect, Pipe.send, upd_eq] at *; grind
  case ena => have a_ena := h.ena; have a_old := h.old; clear h; simp only [Pa.open, Pa.last, Pipe.connect, Pipe.send, upd_eq] at *; grind
  case ret => have a_ret := h.ret; clear h; simp only [Pa.open, Pa.last, Pipe.connect, Pipe.send, upd_eq] at *; grind
  case succ => have a_succ := h.succ; clear h; simp only [Pa.open, Pa.last, Pipe.connect, Pipe.send, upd_eq] at *; grind
  case join => have a_join := h.join; have a_ret := h.ret; have a_succ := h.succ; clear h; simp only [Pa.open, Pa.last, Pipe.connect, Pipe.send, upd_eq] at *; grind
  case fault => have a_fault := h.fault; have a_ret := h.ret; have a_nochild := h.nochild; have a_join := h.join; have a_succ := h.succ; clear h; simp only [Pa.open, Pa.last, Pipe.connect, Pipe.send, upd_eq] at *; grind
  case same => have a_same := h.same; have a_succ := h.succ; have a_join := h.join; clear h; simp only [Pa.open, Pa.last, Pipe.connect, Pipe.send, upd_eq] at *; grind
  case pre => have a_pre := h.pre; have a_nochild := h.nochild; clear h; simp only [Pa.open, Pa.last, Pipe.connect, Pipe.send, upd_eq] at *; grind
  case nochild => have a_nochild := h.nochild; clear h; simp only [Pa.open, Pa.last, Pipe.connect, Pipe.send, upd_eq] at *; grind
  case fd0neg => have a_fd0neg := h.fd0neg; have a_ok1 := h.ok'; clear h; simp only [Pa.open, Pa.last, Pipe.connect, Pipe.send, upd_eq] at *; grind
  case fd1neg => have a_fd1neg := h.fd1neg; clear h; simp only [Pa.open, Pa.last, Pipe.connect, Pipe.send, upd_eq] at *; grind
  case lis => have a_lis := h.lis; have a_lis1 := h.lis'; have a_pre := h.pre; clear h; simp only [Pa.open, Pa.last, Pipe.connect, Pipe.send, upd_eq] at *; grind
  case lis' => have a_lis1 := h.lis'; have a_lis := h.lis; have a_pre := h.pre; have a_near := h.near; have a_far := h.far; clear h; simp only [Pa.open, Pa.last, Pipe.connect, Pipe.send, upd_eq] at *; grind
  case near =>
    have a_near := h.near; clear h
    have no : ∀ y d nb, s.fds y ≠ some ⟨.near d, nb⟩ := by intro y d nb e; have := a_near _ _ _ e; rw [hc.1] at this; simp at this
    intro y d nb e
    simp only [upd_eq] at e
    split at e
    · rename_i hy; subst hy; cases e; exact ⟨rfl, Nat.lt_succ_self _, by simp [Pipe.connect, upd_eq], by simp [Pipe.connect, upd_eq], .inl ⟨_, rfl⟩⟩
    · exact absurd e (no _ _ _)
  case mine => have a_mine := h.mine; have a_nochild := h.nochild; have a_wr := h.wr; have a_as := h.as; have a_near := h.near; have a_zero := h.zero; have a_fd0neg := h.fd0neg; have a_ok1 := h.ok'; have a_succ := h.succ; have a_join := h.join; have a_lis1 := h.lis'; have a_far1 := h.far'; clear h; simp only [Pa.open, Pa.last, Pipe.connect, Pipe.send, upd_eq] at *; grind
  case wr =>
    have a_near := h.near; have a_wr := h.wr; clear h
    intro y rest e
    cases e
    refine ⟨⟨s.next, by simp [upd_eq]⟩, fun d nb e => ?_⟩
    simp only [upd_eq, ↓reduceIte] at e
    cases e
    simp [Pipe.connect, upd_eq]
  case as => have a_as := h.as; have a_lis1 := h.lis'; have a_wr := h.wr; have a_near := h.near; have a_far := h.far; have a_far1 := h.far'; clear h; simp only [Pa.open, Pa.last, Pipe.connect, Pipe.send, upd_eq] at *; grind
  case zero => have a_zero := h.zero; have a_as := h.as; have a_lis1 := h.lis'; have a_far1 := h.far'; have a_near := h.near; have a_fd0neg := h.fd0neg; have a_ok1 := h.ok'; have a_far := h.far; clear h; simp only [Pa.open, Pa.last, Pipe.connect, Pipe.send, upd_eq] at *; grind
  case pref => have a_pref := h.pref; have a_wr := h.wr; have a_near := h.near; clear h; simp only [Pa.open, Pa.last, Pipe.connect, Pipe.send, upd_eq] at *; grind
  case dead => have a_dead := h.dead; have a_near := h.near; clear h; simp only [Pa.open, Pa.last, Pipe.connect, Pipe.send, upd_eq] at *; grind
  case far => have a_far := h.far; have a_pre := h.pre; have a_queue := h.queue; have a_far1 := h.far'; have a_near := h.near; have a_lis1 := h.lis'; have a_succ := h.succ; have a_join := h.join; have a_ok := h.ok; have a_ok1 := h.ok'; have a_fd1neg := h.fd1neg; have a_ret := h.ret; clear h; simp only [Pa.open, Pa.last, Pipe.connect, Pipe.send, upd_eq] at *; grind
  case far' => have a_far1 := h.far'; have a_near := h.near; have a_zero := h.zero; have a_lis1 := h.lis'; have a_ok1 := h.ok'; have a_pre := h.pre; have a_ok := h.ok; have a_rd := h.rd; have a_far := h.far; clear h; simp only [Pa.open, Pa.last, Pipe.connect, Pipe.send, upd_eq] at *; grind
  case rd => have a_rd := h.rd; clear h; simp only [Pa.open, Pa.last, Pipe.connect, Pipe.send, upd_eq] at *; grind
  case data => have a_data := h.data; have a_near := h.near; clear h; simp only [Pa.open, Pa.last, Pipe.connect, Pipe.send, upd_eq] at *; grind
  case queue => have a_queue := h.queue; clear h; simp only [Pa.open, Pa.last, Pipe.connect, Pipe.send, upd_eq] at *; grind
  case ok => have a_ok := h.ok; have a_data := h.data; have a_pref := h.pref; have a_far := h.far; have a_far1 := h.far'; have a_rd := h.rd; have a_sec := h.sec; have a_lis1 := h.lis'; have a_near := h.near; have a_succ := h.succ; have a_fd1neg := h.fd1neg; clear h; simp only [Pa.open, Pa.last, Pipe.connect, Pipe.send, upd_eq] at *; grind
  case ok' => have a_ok1 := h.ok'; have a_ok := h.ok; have a_far := h.far; have a_near := h.near; have a_lis1 := h.lis'; have a_zero := h.zero; have a_succ := h.succ; have a_join := h.join; clear h; simp only [Pa.open, Pa.last, Pipe.connect, Pipe.send, upd_eq] at *; grind

theorem Inv.dialErr_step {secret : List UInt8} {p : Int × Int} {e0 : Bool} {s s' : S} {e : Int} {b : Bool} (hl : secret.length = 8) (h : Inv secret p e0 s) (hs : Pipe.step s (.dialErr e b) = some s') : Inv secret p e0 s' := by
  simp only [Pipe.step, Option.ite_none_right_eq_some, Option.some.injEq] at hs
  obtain ⟨hc, rfl⟩ := hs
  cases b
  · simp only [Bool.false_eq_true, ↓reduceIte]
    constructor
    case lnz => have a_lnz := h.lnz; have a_lis1 := h.lis'; have a_pre := h.pre; have a_nochild := h.nochild; have a_succ := h.succ; have a_ret := h.ret; clear h; simp only [Pa.open, Pa.last, Pipe.connect, Pipe.send, upd_eq] at *; grind
    case sec => have a_sec := h.sec; clear h; simp only [Pa.open, Pa.last, Pipe.connect, Pipe.send, upd_eq] at *; grind
    case old => have a_old := h.old; clear h; simp only [Pa.open, Pa.last, Pipe.connect, Pipe.send, upd_eq] at *; grind
    case ena => have a_ena := h.ena; have a_old := h.old; clear h; simp only [Pa.open, Pa.last, Pipe.connect, Pipe.send, upd_eq] at *; grind
    case ret => have a_ret := h.ret; clear h; simp only [Pa.open, Pa.last, Pipe.connect, Pipe.send, upd_eq] at *; grind
    case succ => have a_succ := h.succ; clear h; simp only [Pa.open, Pa.last, Pipe.connect, Pipe.send, upd_eq] at *; grind
    case join => have a_join := h.join; have a_ret := h.ret; have a_succ := h.succ; clear h; simp only [Pa.open, Pa.last, Pipe.connect, Pipe.send, upd_eq] at *; grind
    case fault => have a_fault := h.fault; have a_ret := h.ret; have a_nochild := h.nochild; have a_join := h.join; have a_succ := h.succ; clear h; simp only [Pa.open, Pa.last, Pipe.connect, Pipe.send, upd_eq] at *; grind
    case same => have a_same := h.same; have a_succ := h.succ; have a_join := h.join; clear h; simp only [Pa.open, Pa.last, Pipe.connect, Pipe.send, upd_eq] at *; grind
    case pre => have a_pre := h.pre; have a_nochild := h.nochild; clear h; simp only [Pa.open, Pa.last, Pipe.connect, Pipe.send, upd_eq] at *; grind
    case nochild => have a_nochild := h.nochild; clear h; simp only [Pa.open, Pa.last, Pipe.connect, Pipe.send, upd_eq] at *; grind
    case fd0neg => have a_fd0neg := h.fd0neg; have a_ok1 := h.ok'; clear h; simp only [Pa.open, Pa.last, Pipe.connect, Pipe.send, upd_eq] at *; grind
    case fd1neg => have a_fd1neg := h.fd1neg; clear h; simp only [Pa.open, Pa.last, Pipe.connect, Pipe.send, upd_eq] at *; grind
    case lis => have a_lis := h.lis; have a_lis1 := h.lis'; have a_pre := h.pre; clear h; simp only [Pa.open, Pa.last, Pipe.connect, Pipe.send, upd_eq] at *; grind
    case lis' => have a_lis1 := h.lis'; have a_lis := h.lis; have a_pre := h.pre; have a_near := h.near; have a_far := h.far; clear h; simp only [Pa.open, Pa.last, Pipe.connect, Pipe.send, upd_eq] at *; grind
    case near => have a_near := h.near; have a_fault := h.fault; have a_pre := h.pre; have a_nochild := h.nochild; have a_fd0neg := h.fd0neg; have a_zero := h.zero; have a_as := h.as; have a_wr := h.wr; have a_lis1 := h.lis'; have a_succ := h.succ; clear h; simp only [Pa.open, Pa.last, Pipe.connect, Pipe.send, upd_eq] at *; grind
    case mine => have a_mine := h.mine; have a_nochild := h.nochild; have a_wr := h.wr; have a_as := h.as; have a_near := h.near; have a_zero := h.zero; have a_fd0neg := h.fd0neg; have a_ok1 := h.ok'; have a_succ := h.succ; have a_join := h.join; have a_lis1 := h.lis'; have a_far1 := h.far'; clear h; simp only [Pa.open, Pa.last, Pipe.connect, Pipe.send, upd_eq] at *; grind
    case wr => have a_wr := h.wr; have a_lis1 := h.lis'; have a_sec := h.sec; have a_near := h.near; have a_far := h.far; have a_far1 := h.far'; clear h; simp only [Pa.open, Pa.last, Pipe.connect, Pipe.send, upd_eq] at *; grind
    case as => have a_as := h.as; have a_lis1 := h.lis'; have a_wr := h.wr; have a_near := h.near; have a_far := h.far; have a_far1 := h.far'; clear h; simp only [Pa.open, Pa.last, Pipe.connect, Pipe.send, upd_eq] at *; grind
    case zero => have a_zero := h.zero; have a_as := h.as; have a_lis1 := h.lis'; have a_far1 := h.far'; have a_near := h.near; have a_fd0neg := h.fd0neg; have a_ok1 := h.ok'; have a_far := h.far; clear h; simp only [Pa.open, Pa.last, Pipe.connect, Pipe.send, upd_eq] at *; grind
    case pref => have a_pref := h.pref; have a_wr := h.wr; have a_near := h.near; clear h; simp only [Pa.open, Pa.last, Pipe.connect, Pipe.send, upd_eq] at *; grind
    case dead => have a_dead := h.dead; have a_near := h.near; clear h; simp only [Pa.open, Pa.last, Pipe.connect, Pipe.send, upd_eq] at *; grind
    case far => have a_far := h.far; have a_pre := h.pre; have a_queue := h.queue; have a_far1 := h.far'; have a_near := h.near; have a_lis1 := h.lis'; have a_succ := h.succ; have a_join := h.join; have a_ok := h.ok; have a_ok1 := h.ok'; have a_fd1neg := h.fd1neg; have a_ret := h.ret; clear h; simp only [Pa.open, Pa.last, Pipe.connect, Pipe.send, upd_eq] at *; grind
    case far' => have a_far1 := h.far'; have a_near := h.near; have a_zero := h.zero; have a_lis1 := h.lis'; have a_ok1 := h.ok'; have a_pre := h.pre; have a_ok := h.ok; have a_rd := h.rd; have a_far := h.far; clear h; simp only [Pa.open, Pa.last, Pipe.connect, Pipe.send, upd_eq] at *; grind
    case rd => have a_rd := h.rd; clear h; simp only [Pa.open, Pa.last, Pipe.connect, Pipe.send, upd_eq] at *; grind
    case data => have a_data := h.data; have a_near := h.near; clear h; simp only [Pa.open, Pa.last, Pipe.connect, Pipe.send, upd_eq] at *; grind
    case queue => have a_queue := h.queue; clear h; simp only [Pa.open, Pa.last, Pipe.connect, Pipe.send, upd_eq] at *; grind
    case ok => have a_ok := h.ok; have a_data := h.data; have a_pref := h.pref; have a_far := h.far; have a_far1 := h.far'; have a_rd := h.rd; have a_sec := h.sec; have a_lis1 := h.lis'; have a_near := h.near; have a_succ := h.succ; have a_fd1neg := h.fd1neg; clear h; simp only [Pa.open, Pa.last, Pipe.connect, Pipe.send, upd_eq] at *; grind
    case ok' => have a_ok1 := h.ok'; have a_ok := h.ok; have a_far := h.far; have a_near := h.near; have a_lis1 := h.lis'; have a_zero := h.zero; have a_succ := h.succ; have a_join := h.join; clear h; simp only [Pa.open, Pa.last, Pipe.connect, Pipe.send, upd_eq] at *; grind
  · simp only [↓reduceIte]
    constructor
    case lnz => have a_lnz := h.lnz; have a_lis1 := h.lis'; have a_pre := h.pre; have a_nochild := h.nochild; have a_succ := h.succ; have a_ret := h.ret; clear h; simp only [Pa.open, Pa.last, Pipe.connect, Pipe.send, upd_eq] at *; grind
    case sec => have a_sec := h.sec; clear h; simp only [Pa.open, Pa.last, Pipe.connect, Pipe.send, upd_eq] at *; grind
    case old => have a_old := h.old; clear h; simp only [Pa.open, Pa.last, Pipe.connect, Pipe.send, upd_eq] at *; grind
    case ena => have a_ena := h.ena; have a_old := h.old; clear h; simp only [Pa.open, Pa.last, Pipe.connect, Pipe.send, upd_eq] at *; grind
    case ret => have a_ret := h.ret; clear h; simp only [Pa.open, Pa.last, Pipe.connect, Pipe.send, upd_eq] at *; grind
    case succ => have a_succ := h.succ; clear h; simp only [Pa.open, Pa.last, Pipe.connect, Pipe.send, upd_eq] at *; grind
    case join => have a_join := h.join; have a_ret := h.ret; have a_succ := h.succ; clear h; simp only [Pa.open, Pa.last, Pipe.connect, Pipe.send, upd_eq] at *; grind
    case fault => have a_fault := h.fault; have a_ret := h.ret; have a_nochild := h.nochild; have a_join := h.join; have a_succ := h.succ; clear h; simp only [Pa.open, Pa.last, Pipe.connect, Pipe.send, upd_eq] at *; grind
    case same => have a_same := h.same; have a_succ := h.succ; have a_join := h.join; clear h; simp only [Pa.open, Pa.last, Pipe.connect, Pipe.send, upd_eq] at *; grind
    case pre => have a_pre := h.pre; have a_nochild := h.nochild; clear h; simp only [Pa.open, Pa.last, Pipe.connect, Pipe.send, upd_eq] at *; grind
    case nochild => have a_nochild := h.nochild; clear h; simp only [Pa.open, Pa.last, Pipe.connect, Pipe.send, upd_eq] at *; grind
    case fd0neg => have a_fd0neg := h.fd0neg; have a_ok1 := h.ok'; clear h; simp only [Pa.open, Pa.last, Pipe.connect, Pipe.send, upd_eq] at *; grind
    case fd1neg => have a_fd1neg := h.fd1neg; clear h; simp only [Pa.open, Pa.last, Pipe.connect, Pipe.send, upd_eq] at *; grind
    case lis => have a_lis := h.lis; have a_lis1 := h.lis'; have a_pre := h.pre; clear h; simp only [Pa.open, Pa.last, Pipe.connect, Pipe.send, upd_eq] at *; grind
    case lis' => have a_lis1 := h.lis'; have a_lis := h.lis; have a_pre := h.pre; have a_near := h.near; have a_far := h.far; clear h; simp only [Pa.open, Pa.last, Pipe.connect, Pipe.send, upd_eq] at *; grind
    case near => have a_near := h.near; have a_fault := h.fault; have a_pre := h.pre; have a_nochild := h.nochild; have a_fd0neg := h.fd0neg; have a_zero := h.zero; have a_as := h.as; have a_wr := h.wr; have a_lis1 := h.lis'; have a_succ := h.succ; clear h; simp only [Pa.open, Pa.last, Pipe.connect, Pipe.send, upd_eq] at *; grind
    case mine => have a_mine := h.mine; have a_nochild := h.nochild; have a_wr := h.wr; have a_as := h.as; have a_near := h.near; have a_zero := h.zero; have a_fd0neg := h.fd0neg; have a_ok1 := h.ok'; have a_succ := h.succ; have a_join := h.join; have a_lis1 := h.lis'; have a_far1 := h.far'; clear h; simp only [Pa.open, Pa.last, Pipe.connect, Pipe.send, upd_eq] at *; grind
    case wr => have a_wr := h.wr; have a_lis1 := h.lis'; have a_sec := h.sec; have a_near := h.near; have a_far := h.far; have a_far1 := h.far'; clear h; simp only [Pa.open, Pa.last, Pipe.connect, Pipe.send, upd_eq] at *; grind
    case as => have a_as := h.as; have a_lis1 := h.lis'; have a_wr := h.wr; have a_near := h.near; have a_far := h.far; have a_far1 := h.far'; clear h; simp only [Pa.open, Pa.last, Pipe.connect, Pipe.send, upd_eq] at *; grind
    case zero => have a_zero := h.zero; have a_as := h.as; have a_lis1 := h.lis'; have a_far1 := h.far'; have a_near := h.near; have a_fd0neg := h.fd0neg; have a_ok1 := h.ok'; have a_far := h.far; clear h; simp only [Pa.open, Pa.last, Pipe.connect, Pipe.send, upd_eq] at *; grind
    case pref => have a_pref := h.pref; have a_wr := h.wr; have a_near := h.near; clear h; simp only [Pa.open, Pa.last, Pipe.connect, Pipe.send, upd_eq] at *; grind
    case dead => have a_dead := h.dead; have a_near := h.near; clear h; simp only [Pa.open, Pa.last, Pipe.connect, Pipe.send, upd_eq] at *; grind
    case far => have a_far := h.far; have a_pre := h.pre; have a_queue := h.queue; have a_far1 := h.far'; have a_near := h.near; have a_lis1 := h.lis'; have a_succ := h.succ; have a_join := h.join; have a_ok := h.ok; have a_ok1 := h.ok'; have a_fd1neg := h.fd1neg; have a_ret := h.ret; clear h; simp only [Pa.open, Pa.last, Pipe.connect, Pipe.send, upd_eq] at *; grind
    case far' => have a_far1 := h.far'; have a_near := h.near; have a_zero := h.zero; have a_lis1 := h.lis'; have a_ok1 := h.ok'; have a_pre := h.pre; have a_ok := h.ok; have a_rd := h.rd; have a_far := h.far; clear h; simp only [Pa.open, Pa.last, Pipe.connect, Pipe.send, upd_eq] at *; grind
    case rd => have a_rd := h.rd; clear h; simp only [Pa.open, Pa.last, Pipe.connect, Pipe.send, upd_eq] at *; grind
    case data => have a_data := h.data; have a_near := h.near; clear h; simp only [Pa.open, Pa.last, Pipe.connect, Pipe.send, upd_eq] at *; grind
    case queue => have a_queue := h.queue; clear h; simp only [Pa.open, Pa.last, Pipe.connect, Pipe.send, upd_eq] at *; grind
    case ok => have a_ok := h.ok; have a_data := h.data; have a_pref := h.pref; have a_far := h.far; have a_far1 := h.far'; have a_rd := h.rd; have a_sec := h.sec; have a_lis1 := h.lis'; have a_near := h.near; have a_succ := h.succ; have a_fd1neg := h.fd1neg; clear h; simp only [Pa.open, Pa.last, Pipe.connect, Pipe.send, upd_eq] at *; grind
    case ok' => have a_ok1 := h.ok'; have a_ok := h.ok; have a_far := h.far; have a_near := h.near; have a_lis1 := h.lis'; have a_zero := h.zero; have a_succ := h.succ; have a_join := h.join; clear h; simp only [Pa.open, Pa.last, Pipe.connect, Pipe.send, upd_eq] at *; grind

theorem Inv.sent_step {secret : List UInt8} {p : Int × Int} {e0 : Bool} {s s' : S} {n : Nat} (hl : secret.length = 8) (h : Inv secret p e0 s) (hs : Pipe.step s (.sent n) = some s') : Inv secret p e0 s' := by
  simp only [Pipe.step] at hs
  split at hs
  · rename_i fd rest hc
    obtain ⟨⟨c, hfc⟩, hcs⟩ := h.wr _ _ hc
    have : connOf s fd = some c := by simp [connOf, hfc]
    rw [this] at hs
    cases hs
    have hsec := hcs c true hfc
    have hne := h.near _ _ _ hfc
    have hpre : (s.conns c).sent ++ rest.take n <+: s.secret := ⟨rest.drop n, by rw [List.append_assoc, List.take_append_drop]; exact hsec⟩
    have hsuf : ((s.conns c).sent ++ rest.take n) ++ rest.drop n = s.secret := by rw [List.append_assoc, List.take_append_drop]; exact hsec
    constructor
    case lnz => have a_lnz := h.lnz; have a_lis1 := h.lis'; have a_pre := h.pre; have a_nochild := h.nochild; have a_succ := h.succ; have a_ret := h.ret; clear h; simp only [Pa.open, Pa.last, Pipe.connect, Pipe.send, upd_eq] at *; grind
    case sec => have a_sec := h.sec; clear h; simp only [Pa.open, Pa.last, Pipe.connect, Pipe.send, upd_eq] at *; grind
    case old => have a_old := h.old; clear h; simp only [Pa.open, Pa.last, Pipe.connect, Pipe.send, upd_eq] at *; grind
    case ena => have a_ena := h.ena; have a_old := h.old; clear h; simp only [Pa.open, Pa.last, Pipe.connect, Pipe.send, upd_eq] at *; grind
    case ret => have a_ret := h.ret; clear h; simp only [Pa.open, Pa.last, Pipe.connect, Pipe.send, upd_eq] at *; grind
    case succ => have a_succ := h.succ; clear h; simp only [Pa.open, Pa.last, Pipe.connect, Pipe.send, upd_eq] at *; grind
    case join => have a_join := h.join; have a_ret := h.ret; have a_succ := h.succ; clear h; simp only [Pa.open, Pa.last, Pipe.connect, Pipe.send, upd_eq] at *; grind
    case fault => have a_fault := h.fault; have a_ret := h.ret; have a_nochild := h.nochild; have a_join := h.join; have a_succ := h.succ; clear h; simp only [Pa.open, Pa.last, Pipe.connect, Pipe.send, upd_eq] at *; grind
    case same => have a_same := h.same; have a_succ := h.succ; have a_join := h.join; clear h; simp only [Pa.open, Pa.last, Pipe.connect, Pipe.send, upd_eq] at *; grind
    case pre => have a_pre := h.pre; clear h; simp only [Pa.open, Pa.last, Pipe.connect, Pipe.send, upd_eq] at *; grind
    case nochild => have a_nochild := h.nochild; clear h; simp only [Pa.open, Pa.last, Pipe.connect, Pipe.send, upd_eq] at *; grind
    case fd0neg => have a_fd0neg := h.fd0neg; have a_ok1 := h.ok'; clear h; simp only [Pa.open, Pa.last, Pipe.connect, Pipe.send, upd_eq] at *; grind
    case fd1neg => have a_fd1neg := h.fd1neg; clear h; simp only [Pa.open, Pa.last, Pipe.connect, Pipe.send, upd_eq] at *; grind
    case lis => have a_lis := h.lis; have a_lis1 := h.lis'; have a_pre := h.pre; clear h; simp only [Pa.open, Pa.last, Pipe.connect, Pipe.send, upd_eq] at *; grind
    case lis' => have a_lis1 := h.lis'; have a_lis := h.lis; have a_pre := h.pre; have a_near := h.near; have a_far := h.far; clear h; simp only [Pa.open, Pa.last, Pipe.connect, Pipe.send, upd_eq] at *; grind
    case near => have a_near := h.near; have a_fault := h.fault; have a_pre := h.pre; have a_nochild := h.nochild; have a_fd0neg := h.fd0neg; have a_zero := h.zero; have a_as := h.as; have a_wr := h.wr; have a_lis1 := h.lis'; have a_succ := h.succ; clear h; simp only [Pa.open, Pa.last, Pipe.connect, Pipe.send, upd_eq] at *; grind
    case mine => have a_mine := h.mine; have a_nochild := h.nochild; have a_wr := h.wr; have a_as := h.as; have a_near := h.near; have a_zero := h.zero; have a_fd0neg := h.fd0neg; have a_ok1 := h.ok'; have a_succ := h.succ; have a_join := h.join; have a_lis1 := h.lis'; have a_far1 := h.far'; clear h; simp only [Pa.open, Pa.last, Pipe.connect, Pipe.send, upd_eq] at *; grind
    case wr => have a_wr := h.wr; have a_lis1 := h.lis'; have a_sec := h.sec; have a_near := h.near; have a_far := h.far; have a_far1 := h.far'; clear h; simp only [Pa.open, Pa.last, Pipe.connect, Pipe.send, upd_eq] at *; grind
    case as => have a_as := h.as; have a_lis1 := h.lis'; have a_wr := h.wr; have a_near := h.near; have a_far := h.far; have a_far1 := h.far'; clear h; simp only [Pa.open, Pa.last, Pipe.connect, Pipe.send, upd_eq] at *; grind
    case zero => have a_zero := h.zero; have a_as := h.as; have a_lis1 := h.lis'; have a_far1 := h.far'; have a_near := h.near; have a_fd0neg := h.fd0neg; have a_ok1 := h.ok'; have a_far := h.far; clear h; simp only [Pa.open, Pa.last, Pipe.connect, Pipe.send, upd_eq] at *; grind
    case pref => have a_pref := h.pref; have a_wr := h.wr; have a_near := h.near; clear h; simp only [Pa.open, Pa.last, Pipe.connect, Pipe.send, upd_eq] at *; grind
    case dead => have a_dead := h.dead; have a_near := h.near; clear h; simp only [Pa.open, Pa.last, Pipe.connect, Pipe.send, upd_eq] at *; grind
    case far => have a_far := h.far; have a_pre := h.pre; have a_queue := h.queue; have a_far1 := h.far'; have a_near := h.near; have a_lis1 := h.lis'; have a_succ := h.succ; have a_join := h.join; have a_ok := h.ok; have a_ok1 := h.ok'; have a_fd1neg := h.fd1neg; have a_ret := h.ret; clear h; simp only [Pa.open, Pa.last, Pipe.connect, Pipe.send, upd_eq] at *; grind
    case far' => have a_far1 := h.far'; have a_near := h.near; have a_zero := h.zero; have a_lis1 := h.lis'; have a_ok1 := h.ok'; have a_pre := h.pre; have a_ok := h.ok; have a_rd := h.rd; have a_far := h.far; clear h; simp only [Pa.open, Pa.last, Pipe.connect, Pipe.send, upd_eq] at *; grind
    case rd => have a_rd := h.rd; clear h; simp only [Pa.open, Pa.last, Pipe.connect, Pipe.send, upd_eq] at *; grind
    case data => have a_data := h.data; have a_near := h.near; clear h; simp only [Pa.open, Pa.last, Pipe.connect, Pipe.send, upd_eq] at *; grind
    case queue => have a_queue := h.queue; clear h; simp only [Pa.open, Pa.last, Pipe.connect, Pipe.send, upd_eq] at *; grind
    case ok =>
      have a_ok := h.ok; have a_sec := h.sec; clear h
      intro hr hnl
      obtain ⟨h0, d, h1, h2, h3⟩ := a_ok hr hnl
      refine ⟨h0, d, h1, ?_⟩
      simp only [Pipe.send, upd_eq]
      split
      · rename_i hd
        subst hd
        have := full (by rw [a_sec]; exact hl) h2 hsec
        subst this
        simp only [List.take_nil, List.append_nil]
        exact ⟨h2, h3⟩
      · exact ⟨h2, h3⟩
    case ok' => have a_ok1 := h.ok'; have a_ok := h.ok; have a_far := h.far; have a_near := h.near; have a_lis1 := h.lis'; have a_zero := h.zero; have a_succ := h.succ; have a_join := h.join; clear h; simp only [Pa.open, Pa.last, Pipe.connect, Pipe.send, upd_eq] at *; grind
  · cases hs

theorem Inv.written_step {secret : List UInt8} {p : Int × Int} {e0 : Bool} {s s' : S} (hl : secret.length = 8) (h : Inv secret p e0 s) (hs : Pipe.step s (.written) = some s') : Inv secret p e0 s' := by
  simp only [Pipe.step] at hs
  split at hs
  · rename_i hc
    cases hs
    constructor
    case lnz => have a_lnz := h.lnz; have a_lis1 := h.lis'; have a_pre := h.pre; have a_nochild := h.nochild; have a_succ := h.succ; have a_ret := h.ret; clear h; simp only [Pa.open, Pa.last, Pipe.connect, Pipe.send, upd_eq] at *; grind
    case sec => have a_sec := h.sec; clear h; simp only [Pa.open, Pa.last, Pipe.connect, Pipe.send, upd_eq] at *; grind
    case old => have a_old := h.old; clear h; simp only [Pa.open, Pa.last, Pipe.connect, Pipe.send, upd_eq] at *; grind
    case ena => have a_ena := h.ena; have a_old := h.old; clear h; simp only [Pa.open, Pa.last, Pipe.connect, Pipe.send, upd_eq] at *; grind
    case ret => have a_ret := h.ret; clear h; simp only [Pa.open, Pa.last, Pipe.connect, Pipe.send, upd_eq] at *; grind
    case succ => have a_succ := h.succ; clear h; simp only [Pa.open, Pa.last, Pipe.connect, Pipe.send, upd_eq] at *; grind
    case join => have a_join := h.join; have a_ret := h.ret; have a_succ := h.succ; clear h; simp only [Pa.open, Pa.last, Pipe.connect, Pipe.send, upd_eq] at *; grind
    case fault => have a_fault := h.fault; have a_ret := h.ret; have a_nochild := h.nochild; have a_join := h.join; have a_succ := h.succ; clear h; simp only [Pa.open, Pa.last, Pipe.connect, Pipe.send, upd_eq] at *; grind
    case same => have a_same := h.same; have a_succ := h.succ; have a_join := h.join; clear h; simp only [Pa.open, Pa.last, Pipe.connect, Pipe.send, upd_eq] at *; grind
    case pre => have a_pre := h.pre; clear h; simp only [Pa.open, Pa.last, Pipe.connect, Pipe.send, upd_eq] at *; grind
    case nochild => have a_nochild := h.nochild; clear h; simp only [Pa.open, Pa.last, Pipe.connect, Pipe.send, upd_eq] at *; grind
    case fd0neg => have a_fd0neg := h.fd0neg; have a_ok1 := h.ok'; clear h; simp only [Pa.open, Pa.last, Pipe.connect, Pipe.send, upd_eq] at *; grind
    case fd1neg => have a_fd1neg := h.fd1neg; clear h; simp only [Pa.open, Pa.last, Pipe.connect, Pipe.send, upd_eq] at *; grind
    case lis => have a_lis := h.lis; have a_lis1 := h.lis'; have a_pre := h.pre; clear h; simp only [Pa.open, Pa.last, Pipe.connect, Pipe.send, upd_eq] at *; grind
    case lis' => have a_lis1 := h.lis'; have a_lis := h.lis; have a_pre := h.pre; have a_near := h.near; have a_far := h.far; clear h; simp only [Pa.open, Pa.last, Pipe.connect, Pipe.send, upd_eq] at *; grind
    case near => have a_near := h.near; have a_fault := h.fault; have a_pre := h.pre; have a_nochild := h.nochild; have a_fd0neg := h.fd0neg; have a_zero := h.zero; have a_as := h.as; have a_wr := h.wr; have a_lis1 := h.lis'; have a_succ := h.succ; clear h; simp only [Pa.open, Pa.last, Pipe.connect, Pipe.send, upd_eq] at *; grind
    case mine => have a_mine := h.mine; have a_nochild := h.nochild; have a_wr := h.wr; have a_as := h.as; have a_near := h.near; have a_zero := h.zero; have a_fd0neg := h.fd0neg; have a_ok1 := h.ok'; have a_succ := h.succ; have a_join := h.join; have a_lis1 := h.lis'; have a_far1 := h.far'; clear h; simp only [Pa.open, Pa.last, Pipe.connect, Pipe.send, upd_eq] at *; grind
    case wr => have a_wr := h.wr; have a_lis1 := h.lis'; have a_sec := h.sec; have a_near := h.near; have a_far := h.far; have a_far1 := h.far'; clear h; simp only [Pa.open, Pa.last, Pipe.connect, Pipe.send, upd_eq] at *; grind
    case as => have a_as := h.as; have a_lis1 := h.lis'; have a_wr := h.wr; have a_near := h.near; have a_far := h.far; have a_far1 := h.far'; clear h; simp only [Pa.open, Pa.last, Pipe.connect, Pipe.send, upd_eq] at *; grind
    case zero => have a_zero := h.zero; have a_as := h.as; have a_lis1 := h.lis'; have a_far1 := h.far'; have a_near := h.near; have a_fd0neg := h.fd0neg; have a_ok1 := h.ok'; have a_far := h.far; clear h; simp only [Pa.open, Pa.last, Pipe.connect, Pipe.send, upd_eq] at *; grind
    case pref => have a_pref := h.pref; have a_wr := h.wr; have a_near := h.near; clear h; simp only [Pa.open, Pa.last, Pipe.connect, Pipe.send, upd_eq] at *; grind
    case dead => have a_dead := h.dead; have a_near := h.near; clear h; simp only [Pa.open, Pa.last, Pipe.connect, Pipe.send, upd_eq] at *; grind
    case far => have a_far := h.far; have a_pre := h.pre; have a_queue := h.queue; have a_far1 := h.far'; have a_near := h.near; have a_lis1 := h.lis'; have a_succ := h.succ; have a_join := h.join; have a_ok := h.ok; have a_ok1 := h.ok'; have a_fd1neg := h.fd1neg; have a_ret := h.ret; clear h; simp only [Pa.open, Pa.last, Pipe.connect, Pipe.send, upd_eq] at *; grind
    case far' => have a_far1 := h.far'; have a_near := h.near; have a_zero := h.zero; have a_lis1 := h.lis'; have a_ok1 := h.ok'; have a_pre := h.pre; have a_ok := h.ok; have a_rd := h.rd; have a_far := h.far; clear h; simp only [Pa.open, Pa.last, Pipe.connect, Pipe.send, upd_eq] at *; grind
    case rd => have a_rd := h.rd; clear h; simp only [Pa.open, Pa.last, Pipe.connect, Pipe.send, upd_eq] at *; grind
    case data => have a_data := h.data; have a_near := h.near; clear h; simp only [Pa.open, Pa.last, Pipe.connect, Pipe.send, upd_eq] at *; grind
    case queue => have a_queue := h.queue; clear h; simp only [Pa.open, Pa.last, Pipe.connect, Pipe.send, upd_eq] at *; grind
    case ok => have a_ok := h.ok; have a_data := h.data; have a_pref := h.pref; have a_far := h.far; have a_far1 := h.far'; have a_rd := h.rd; have a_sec := h.sec; have a_lis1 := h.lis'; have a_near := h.near; have a_succ := h.succ; have a_fd1neg := h.fd1neg; clear h; simp only [Pa.open, Pa.last, Pipe.connect, Pipe.send, upd_eq] at *; grind
    case ok' => have a_ok1 := h.ok'; have a_ok := h.ok; have a_far := h.far; have a_near := h.near; have a_lis1 := h.lis'; have a_zero := h.zero; have a_succ := h.succ; have a_join := h.join; clear h; simp only [Pa.open, Pa.last, Pipe.connect, Pipe.send, upd_eq] at *; grind
  · cases hs

theorem Inv.assign_step {secret : List UInt8} {p : Int × Int} {e0 : Bool} {s s' : S} (hl : secret.length = 8) (h : Inv secret p e0 s) (hs : Pipe.step s (.assign) = some s') : Inv secret p e0 s' := by
  simp only [Pipe.step] at hs
  split at hs
  · rename_i hc
    by_cases hd : s.pa = .done
    · rw [if_pos hd] at hs
      cases hs
      constructor
      case lnz => have a_lnz := h.lnz; have a_lis1 := h.lis'; have a_pre := h.pre; have a_nochild := h.nochild; have a_succ := h.succ; have a_ret := h.ret; clear h; simp only [Pa.open, Pa.last, Pipe.connect, Pipe.send, upd_eq] at *; grind
      case sec => have a_sec := h.sec; clear h; simp only [Pa.open, Pa.last, Pipe.connect, Pipe.send, upd_eq] at *; grind
      case old => have a_old := h.old; clear h; simp only [Pa.open, Pa.last, Pipe.connect, Pipe.send, upd_eq] at *; grind
      case ena => have a_ena := h.ena; have a_old := h.old; clear h; simp only [Pa.open, Pa.last, Pipe.connect, Pipe.send, upd_eq] at *; grind
      case ret => have a_ret := h.ret; clear h; simp only [Pa.open, Pa.last, Pipe.connect, Pipe.send, upd_eq] at *; grind
      case succ => have a_succ := h.succ; clear h; simp only [Pa.open, Pa.last, Pipe.connect, Pipe.send, upd_eq] at *; grind
      case join => have a_join := h.join; have a_ret := h.ret; have a_succ := h.succ; clear h; simp only [Pa.open, Pa.last, Pipe.connect, Pipe.send, upd_eq] at *; grind
      case fault => have a_fault := h.fault; have a_ret := h.ret; have a_nochild := h.nochild; have a_join := h.join; have a_succ := h.succ; have a_ok1 := h.ok'; clear h; simp only [Pa.open, Pa.last, Pipe.connect, Pipe.send, upd_eq] at *; grind
      case same => have a_same := h.same; have a_succ := h.succ; have a_join := h.join; clear h; simp only [Pa.open, Pa.last, Pipe.connect, Pipe.send, upd_eq] at *; grind
      case pre => have a_pre := h.pre; clear h; simp only [Pa.open, Pa.last, Pipe.connect, Pipe.send, upd_eq] at *; grind
      case nochild => have a_nochild := h.nochild; clear h; simp only [Pa.open, Pa.last, Pipe.connect, Pipe.send, upd_eq] at *; grind
      case fd0neg => have a_fd0neg := h.fd0neg; have a_ok1 := h.ok'; clear h; simp only [Pa.open, Pa.last, Pipe.connect, Pipe.send, upd_eq] at *; grind
      case fd1neg => have a_fd1neg := h.fd1neg; clear h; simp only [Pa.open, Pa.last, Pipe.connect, Pipe.send, upd_eq] at *; grind
      case lis => have a_lis := h.lis; have a_lis1 := h.lis'; have a_pre := h.pre; clear h; simp only [Pa.open, Pa.last, Pipe.connect, Pipe.send, upd_eq] at *; grind
      case lis' => have a_lis1 := h.lis'; have a_lis := h.lis; have a_pre := h.pre; have a_near := h.near; have a_far := h.far; clear h; simp only [Pa.open, Pa.last, Pipe.connect, Pipe.send, upd_eq] at *; grind
      case near => have a_near := h.near; have a_fault := h.fault; have a_pre := h.pre; have a_nochild := h.nochild; have a_fd0neg := h.fd0neg; have a_zero := h.zero; have a_as := h.as; have a_wr := h.wr; have a_lis1 := h.lis'; have a_succ := h.succ; clear h; simp only [Pa.open, Pa.last, Pipe.connect, Pipe.send, upd_eq] at *; grind
      case mine => have a_mine := h.mine; have a_ok1 := h.ok'; have a_succ := h.succ; clear h; simp only [Pa.open, Pa.last, Pipe.connect, Pipe.send, upd_eq] at *; grind
      case wr => have a_wr := h.wr; have a_lis1 := h.lis'; have a_sec := h.sec; have a_near := h.near; have a_far := h.far; have a_far1 := h.far'; clear h; simp only [Pa.open, Pa.last, Pipe.connect, Pipe.send, upd_eq] at *; grind
      case as => have a_as := h.as; have a_lis1 := h.lis'; have a_wr := h.wr; have a_near := h.near; have a_far := h.far; have a_far1 := h.far'; clear h; simp only [Pa.open, Pa.last, Pipe.connect, Pipe.send, upd_eq] at *; grind
      case zero => have a_zero := h.zero; have a_as := h.as; have a_lis1 := h.lis'; have a_far1 := h.far'; have a_near := h.near; have a_fd0neg := h.fd0neg; have a_ok1 := h.ok'; have a_far := h.far; clear h; simp only [Pa.open, Pa.last, Pipe.connect, Pipe.send, upd_eq] at *; grind
      case pref => have a_pref := h.pref; have a_wr := h.wr; have a_near := h.near; clear h; simp only [Pa.open, Pa.last, Pipe.connect, Pipe.send, upd_eq] at *; grind
      case dead => have a_dead := h.dead; have a_near := h.near; clear h; simp only [Pa.open, Pa.last, Pipe.connect, Pipe.send, upd_eq] at *; grind
      case far => have a_far := h.far; have a_pre := h.pre; have a_queue := h.queue; have a_far1 := h.far'; have a_near := h.near; have a_lis1 := h.lis'; have a_succ := h.succ; have a_join := h.join; have a_ok := h.ok; have a_ok1 := h.ok'; have a_fd1neg := h.fd1neg; have a_ret := h.ret; clear h; simp only [Pa.open, Pa.last, Pipe.connect, Pipe.send, upd_eq] at *; grind
      case far' => have a_far1 := h.far'; have a_near := h.near; have a_zero := h.zero; have a_lis1 := h.lis'; have a_ok1 := h.ok'; have a_pre := h.pre; have a_ok := h.ok; have a_rd := h.rd; have a_far := h.far; clear h; simp only [Pa.open, Pa.last, Pipe.connect, Pipe.send, upd_eq] at *; grind
      case rd => have a_rd := h.rd; clear h; simp only [Pa.open, Pa.last, Pipe.connect, Pipe.send, upd_eq] at *; grind
      case data => have a_data := h.data; have a_near := h.near; clear h; simp only [Pa.open, Pa.last, Pipe.connect, Pipe.send, upd_eq] at *; grind
      case queue => have a_queue := h.queue; clear h; simp only [Pa.open, Pa.last, Pipe.connect, Pipe.send, upd_eq] at *; grind
      case ok => have a_ok := h.ok; have a_data := h.data; have a_pref := h.pref; have a_far := h.far; have a_far1 := h.far'; have a_rd := h.rd; have a_sec := h.sec; have a_lis1 := h.lis'; have a_near := h.near; have a_succ := h.succ; have a_fd1neg := h.fd1neg; clear h; simp only [Pa.open, Pa.last, Pipe.connect, Pipe.send, upd_eq] at *; grind
      case ok' => have a_ok1 := h.ok'; have a_ok := h.ok; have a_far := h.far; have a_near := h.near; have a_lis1 := h.lis'; have a_zero := h.zero; have a_succ := h.succ; have a_join := h.join; clear h; simp only [Pa.open, Pa.last, Pipe.connect, Pipe.send, upd_eq] at *; grind
    · rw [if_neg hd] at hs
      cases hs
      constructor
      case lnz => have a_lnz := h.lnz; have a_lis1 := h.lis'; have a_pre := h.pre; have a_nochild := h.nochild; have a_succ := h.succ; have a_ret := h.ret; clear h; simp only [Pa.open, Pa.last, Pipe.connect, Pipe.send, upd_eq] at *; grind
      case sec => have a_sec := h.sec; clear h; simp only [Pa.open, Pa.last, Pipe.connect, Pipe.send, upd_eq] at *; grind
      case old => have a_old := h.old; clear h; simp only [Pa.open, Pa.last, Pipe.connect, Pipe.send, upd_eq] at *; grind
      case ena => have a_ena := h.ena; have a_old := h.old; clear h; simp only [Pa.open, Pa.last, Pipe.connect, Pipe.send, upd_eq] at *; grind
      case ret => have a_ret := h.ret; clear h; simp only [Pa.open, Pa.last, Pipe.connect, Pipe.send, upd_eq] at *; grind
      case succ => have a_succ := h.succ; clear h; simp only [Pa.open, Pa.last, Pipe.connect, Pipe.send, upd_eq] at *; grind
      case join => have a_join := h.join; have a_ret := h.ret; have a_succ := h.succ; clear h; simp only [Pa.open, Pa.last, Pipe.connect, Pipe.send, upd_eq] at *; grind
      case fault => have a_fault := h.fault; have a_ret := h.ret; have a_nochild := h.nochild; have a_join := h.join; have a_succ := h.succ; have a_ok1 := h.ok'; clear h; simp only [Pa.open, Pa.last, Pipe.connect, Pipe.send, upd_eq] at *; grind
      case same => have a_same := h.same; have a_succ := h.succ; have a_join := h.join; clear h; simp only [Pa.open, Pa.last, Pipe.connect, Pipe.send, upd_eq] at *; grind
      case pre => have a_pre := h.pre; clear h; simp only [Pa.open, Pa.last, Pipe.connect, Pipe.send, upd_eq] at *; grind
      case nochild => have a_nochild := h.nochild; clear h; simp only [Pa.open, Pa.last, Pipe.connect, Pipe.send, upd_eq] at *; grind
      case fd0neg => have a_fd0neg := h.fd0neg; have a_ok1 := h.ok'; clear h; simp only [Pa.open, Pa.last, Pipe.connect, Pipe.send, upd_eq] at *; grind
      case fd1neg => have a_fd1neg := h.fd1neg; clear h; simp only [Pa.open, Pa.last, Pipe.connect, Pipe.send, upd_eq] at *; grind
      case lis => have a_lis := h.lis; have a_lis1 := h.lis'; have a_pre := h.pre; clear h; simp only [Pa.open, Pa.last, Pipe.connect, Pipe.send, upd_eq] at *; grind
      case lis' => have a_lis1 := h.lis'; have a_lis := h.lis; have a_pre := h.pre; have a_near := h.near; have a_far := h.far; clear h; simp only [Pa.open, Pa.last, Pipe.connect, Pipe.send, upd_eq] at *; grind
      case near => have a_near := h.near; have a_fault := h.fault; have a_pre := h.pre; have a_nochild := h.nochild; have a_fd0neg := h.fd0neg; have a_zero := h.zero; have a_as := h.as; have a_wr := h.wr; have a_lis1 := h.lis'; have a_succ := h.succ; clear h; simp only [Pa.open, Pa.last, Pipe.connect, Pipe.send, upd_eq] at *; grind
      case mine => have a_mine := h.mine; have a_ok1 := h.ok'; have a_succ := h.succ; clear h; simp only [Pa.open, Pa.last, Pipe.connect, Pipe.send, upd_eq] at *; grind
      case wr => have a_wr := h.wr; have a_lis1 := h.lis'; have a_sec := h.sec; have a_near := h.near; have a_far := h.far; have a_far1 := h.far'; clear h; simp only [Pa.open, Pa.last, Pipe.connect, Pipe.send, upd_eq] at *; grind
      case as => have a_as := h.as; have a_lis1 := h.lis'; have a_wr := h.wr; have a_near := h.near; have a_far := h.far; have a_far1 := h.far'; clear h; simp only [Pa.open, Pa.last, Pipe.connect, Pipe.send, upd_eq] at *; grind
      case zero => have a_zero := h.zero; have a_as := h.as; have a_lis1 := h.lis'; have a_far1 := h.far'; have a_near := h.near; have a_fd0neg := h.fd0neg; have a_ok1 := h.ok'; have a_far := h.far; clear h; simp only [Pa.open, Pa.last, Pipe.connect, Pipe.send, upd_eq] at *; grind
      case pref => have a_pref := h.pref; have a_wr := h.wr; have a_near := h.near; clear h; simp only [Pa.open, Pa.last, Pipe.connect, Pipe.send, upd_eq] at *; grind
      case dead => have a_dead := h.dead; have a_near := h.near; clear h; simp only [Pa.open, Pa.last, Pipe.connect, Pipe.send, upd_eq] at *; grind
      case far => have a_far := h.far; have a_pre := h.pre; have a_queue := h.queue; have a_far1 := h.far'; have a_near := h.near; have a_lis1 := h.lis'; have a_succ := h.succ; have a_join := h.join; have a_ok := h.ok; have a_ok1 := h.ok'; have a_fd1neg := h.fd1neg; have a_ret := h.ret; clear h; simp only [Pa.open, Pa.last, Pipe.connect, Pipe.send, upd_eq] at *; grind
      case far' => have a_far1 := h.far'; have a_near := h.near; have a_zero := h.zero; have a_lis1 := h.lis'; have a_ok1 := h.ok'; have a_pre := h.pre; have a_ok := h.ok; have a_rd := h.rd; have a_far := h.far; clear h; simp only [Pa.open, Pa.last, Pipe.connect, Pipe.send, upd_eq] at *; grind
      case rd => have a_rd := h.rd; clear h; simp only [Pa.open, Pa.last, Pipe.connect, Pipe.send, upd_eq] at *; grind
      case data => have a_data := h.data; have a_near := h.near; clear h; simp only [Pa.open, Pa.last, Pipe.connect, Pipe.send, upd_eq] at *; grind
      case queue => have a_queue := h.queue; clear h; simp only [Pa.open, Pa.last, Pipe.connect, Pipe.send, upd_eq] at *; grind
      case ok => have a_ok := h.ok; have a_data := h.data; have a_pref := h.pref; have a_far := h.far; have a_far1 := h.far'; have a_rd := h.rd; have a_sec := h.sec; have a_lis1 := h.lis'; have a_near := h.near; have a_succ := h.succ; have a_fd1neg := h.fd1neg; clear h; simp only [Pa.open, Pa.last, Pipe.connect, Pipe.send, upd_eq] at *; grind
      case ok' => have a_ok1 := h.ok'; have a_ok := h.ok; have a_far := h.far; have a_near := h.near; have a_lis1 := h.lis'; have a_zero := h.zero; have a_succ := h.succ; have a_join := h.join; clear h; simp only [Pa.open, Pa.last, Pipe.connect, Pipe.send, upd_eq] at *; grind
  · cases hs

theorem Inv.killed_step {secret : List UInt8} {p : Int × Int} {e0 : Bool} {s s' : S} (hl : secret.length = 8) (h : Inv secret p e0 s) (hs : Pipe.step s (.killed) = some s') : Inv secret p e0 s' := by
  simp only [Pipe.step] at hs
  split at hs
  · rename_i hc
    cases hs
    constructor
    case lnz => have a_lnz := h.lnz; have a_lis1 := h.lis'; have a_pre := h.pre; have a_nochild := h.nochild; have a_succ := h.succ; have a_ret := h.ret; clear h; simp only [Pa.open, Pa.last, Pipe.connect, Pipe.send, upd_eq] at *; grind
    case sec => have a_sec := h.sec; clear h; simp only [Pa.open, Pa.last, Pipe.connect, Pipe.send, upd_eq] at *; grind
    case old => have a_old := h.old; clear h; simp only [Pa.open, Pa.last, Pipe.connect, Pipe.send, upd_eq] at *; grind
    case ena => have a_ena := h.ena; have a_old := h.old; clear h; simp only [Pa.open, Pa.last, Pipe.connect, Pipe.send, upd_eq] at *; grind
    case ret => have a_ret := h.ret; clear h; simp only [Pa.open, Pa.last, Pipe.connect, Pipe.send, upd_eq] at *; grind
    case succ => have a_succ := h.succ; clear h; simp only [Pa.open, Pa.last, Pipe.connect, Pipe.send, upd_eq] at *; grind
    case join => have a_join := h.join; have a_ret := h.ret; have a_succ := h.succ; clear h; simp only [Pa.open, Pa.last, Pipe.connect, Pipe.send, upd_eq] at *; grind
    case fault => have a_fault := h.fault; have a_ret := h.ret; have a_nochild := h.nochild; have a_join := h.join; have a_succ := h.succ; clear h; simp only [Pa.open, Pa.last, Pipe.connect, Pipe.send, upd_eq] at *; grind
    case same => have a_same := h.same; have a_succ := h.succ; have a_join := h.join; clear h; simp only [Pa.open, Pa.last, Pipe.connect, Pipe.send, upd_eq] at *; grind
    case pre => have a_pre := h.pre; clear h; simp only [Pa.open, Pa.last, Pipe.connect, Pipe.send, upd_eq] at *; grind
    case nochild => have a_nochild := h.nochild; clear h; simp only [Pa.open, Pa.last, Pipe.connect, Pipe.send, upd_eq] at *; grind
    case fd0neg => have a_fd0neg := h.fd0neg; have a_ok1 := h.ok'; clear h; simp only [Pa.open, Pa.last, Pipe.connect, Pipe.send, upd_eq] at *; grind
    case fd1neg => have a_fd1neg := h.fd1neg; clear h; simp only [Pa.open, Pa.last, Pipe.connect, Pipe.send, upd_eq] at *; grind
    case lis => have a_lis := h.lis; have a_lis1 := h.lis'; have a_pre := h.pre; clear h; simp only [Pa.open, Pa.last, Pipe.connect, Pipe.send, upd_eq] at *; grind
    case lis' => have a_lis1 := h.lis'; have a_lis := h.lis; have a_pre := h.pre; have a_near := h.near; have a_far := h.far; clear h; simp only [Pa.open, Pa.last, Pipe.connect, Pipe.send, upd_eq] at *; grind
    case near => have a_near := h.near; have a_fault := h.fault; have a_pre := h.pre; have a_nochild := h.nochild; have a_fd0neg := h.fd0neg; have a_zero := h.zero; have a_as := h.as; have a_wr := h.wr; have a_lis1 := h.lis'; have a_succ := h.succ; clear h; simp only [Pa.open, Pa.last, Pipe.connect, Pipe.send, upd_eq] at *; grind
    case mine => have a_mine := h.mine; have a_nochild := h.nochild; have a_wr := h.wr; have a_as := h.as; have a_near := h.near; have a_zero := h.zero; have a_fd0neg := h.fd0neg; have a_ok1 := h.ok'; have a_succ := h.succ; have a_join := h.join; have a_lis1 := h.lis'; have a_far1 := h.far'; clear h; simp only [Pa.open, Pa.last, Pipe.connect, Pipe.send, upd_eq] at *; grind
    case wr => have a_wr := h.wr; have a_lis1 := h.lis'; have a_sec := h.sec; have a_near := h.near; have a_far := h.far; have a_far1 := h.far'; clear h; simp only [Pa.open, Pa.last, Pipe.connect, Pipe.send, upd_eq] at *; grind
    case as => have a_as := h.as; have a_lis1 := h.lis'; have a_wr := h.wr; have a_near := h.near; have a_far := h.far; have a_far1 := h.far'; clear h; simp only [Pa.open, Pa.last, Pipe.connect, Pipe.send, upd_eq] at *; grind
    case zero => have a_zero := h.zero; have a_as := h.as; have a_lis1 := h.lis'; have a_far1 := h.far'; have a_near := h.near; have a_fd0neg := h.fd0neg; have a_ok1 := h.ok'; have a_far := h.far; clear h; simp only [Pa.open, Pa.last, Pipe.connect, Pipe.send, upd_eq] at *; grind
    case pref => have a_pref := h.pref; have a_wr := h.wr; have a_near := h.near; clear h; simp only [Pa.open, Pa.last, Pipe.connect, Pipe.send, upd_eq] at *; grind
    case dead => have a_dead := h.dead; have a_near := h.near; clear h; simp only [Pa.open, Pa.last, Pipe.connect, Pipe.send, upd_eq] at *; grind
    case far => have a_far := h.far; have a_pre := h.pre; have a_queue := h.queue; have a_far1 := h.far'; have a_near := h.near; have a_lis1 := h.lis'; have a_succ := h.succ; have a_join := h.join; have a_ok := h.ok; have a_ok1 := h.ok'; have a_fd1neg := h.fd1neg; have a_ret := h.ret; clear h; simp only [Pa.open, Pa.last, Pipe.connect, Pipe.send, upd_eq] at *; grind
    case far' => have a_far1 := h.far'; have a_near := h.near; have a_zero := h.zero; have a_lis1 := h.lis'; have a_ok1 := h.ok'; have a_pre := h.pre; have a_ok := h.ok; have a_rd := h.rd; have a_far := h.far; clear h; simp only [Pa.open, Pa.last, Pipe.connect, Pipe.send, upd_eq] at *; grind
    case rd => have a_rd := h.rd; clear h; simp only [Pa.open, Pa.last, Pipe.connect, Pipe.send, upd_eq] at *; grind
    case data => have a_data := h.data; have a_near := h.near; clear h; simp only [Pa.open, Pa.last, Pipe.connect, Pipe.send, upd_eq] at *; grind
    case queue => have a_queue := h.queue; clear h; simp only [Pa.open, Pa.last, Pipe.connect, Pipe.send, upd_eq] at *; grind
    case ok => have a_ok := h.ok; have a_data := h.data; have a_pref := h.pref; have a_far := h.far; have a_far1 := h.far'; have a_rd := h.rd; have a_sec := h.sec; have a_lis1 := h.lis'; have a_near := h.near; have a_succ := h.succ; have a_fd1neg := h.fd1neg; clear h; simp only [Pa.open, Pa.last, Pipe.connect, Pipe.send, upd_eq] at *; grind
    case ok' => have a_ok1 := h.ok'; have a_ok := h.ok; have a_far := h.far; have a_near := h.near; have a_lis1 := h.lis'; have a_zero := h.zero; have a_succ := h.succ; have a_join := h.join; clear h; simp only [Pa.open, Pa.last, Pipe.connect, Pipe.send, upd_eq] at *; grind
  · rename_i hc
    cases hs
    constructor
    case lnz => have a_lnz := h.lnz; have a_lis1 := h.lis'; have a_pre := h.pre; have a_nochild := h.nochild; have a_succ := h.succ; have a_ret := h.ret; clear h; simp only [Pa.open, Pa.last, Pipe.connect, Pipe.send, upd_eq] at *; grind
    case sec => have a_sec := h.sec; clear h; simp only [Pa.open, Pa.last, Pipe.connect, Pipe.send, upd_eq] at *; grind
    case old => have a_old := h.old; clear h; simp only [Pa.open, Pa.last, Pipe.connect, Pipe.send, upd_eq] at *; grind
    case ena => have a_ena := h.ena; have a_old := h.old; clear h; simp only [Pa.open, Pa.last, Pipe.connect, Pipe.send, upd_eq] at *; grind
    case ret => have a_ret := h.ret; clear h; simp only [Pa.open, Pa.last, Pipe.connect, Pipe.send, upd_eq] at *; grind
    case succ => have a_succ := h.succ; clear h; simp only [Pa.open, Pa.last, Pipe.connect, Pipe.send, upd_eq] at *; grind
    case join => have a_join := h.join; have a_ret := h.ret; have a_succ := h.succ; clear h; simp only [Pa.open, Pa.last, Pipe.connect, Pipe.send, upd_eq] at *; grind
    case fault => have a_fault := h.fault; have a_ret := h.ret; have a_nochild := h.nochild; have a_join := h.join; have a_succ := h.succ; clear h; simp only [Pa.open, Pa.last, Pipe.connect, Pipe.send, upd_eq] at *; grind
    case same => have a_same := h.same; have a_succ := h.succ; have a_join := h.join; clear h; simp only [Pa.open, Pa.last, Pipe.connect, Pipe.send, upd_eq] at *; grind
    case pre => have a_pre := h.pre; clear h; simp only [Pa.open, Pa.last, Pipe.connect, Pipe.send, upd_eq] at *; grind
    case nochild => have a_nochild := h.nochild; clear h; simp only [Pa.open, Pa.last, Pipe.connect, Pipe.send, upd_eq] at *; grind
    case fd0neg => have a_fd0neg := h.fd0neg; have a_ok1 := h.ok'; clear h; simp only [Pa.open, Pa.last, Pipe.connect, Pipe.send, upd_eq] at *; grind
    case fd1neg => have a_fd1neg := h.fd1neg; clear h; simp only [Pa.open, Pa.last, Pipe.connect, Pipe.send, upd_eq] at *; grind
    case lis => have a_lis := h.lis; have a_lis1 := h.lis'; have a_pre := h.pre; clear h; simp only [Pa.open, Pa.last, Pipe.connect, Pipe.send, upd_eq] at *; grind
    case lis' => have a_lis1 := h.lis'; have a_lis := h.lis; have a_pre := h.pre; have a_near := h.near; have a_far := h.far; clear h; simp only [Pa.open, Pa.last, Pipe.connect, Pipe.send, upd_eq] at *; grind
    case near => have a_near := h.near; have a_fault := h.fault; have a_pre := h.pre; have a_nochild := h.nochild; have a_fd0neg := h.fd0neg; have a_zero := h.zero; have a_as := h.as; have a_wr := h.wr; have a_lis1 := h.lis'; have a_succ := h.succ; clear h; simp only [Pa.open, Pa.last, Pipe.connect, Pipe.send, upd_eq] at *; grind
    case mine => have a_mine := h.mine; have a_nochild := h.nochild; have a_wr := h.wr; have a_as := h.as; have a_near := h.near; have a_zero := h.zero; have a_fd0neg := h.fd0neg; have a_ok1 := h.ok'; have a_succ := h.succ; have a_join := h.join; have a_lis1 := h.lis'; have a_far1 := h.far'; clear h; simp only [Pa.open, Pa.last, Pipe.connect, Pipe.send, upd_eq] at *; grind
    case wr => have a_wr := h.wr; have a_lis1 := h.lis'; have a_sec := h.sec; have a_near := h.near; have a_far := h.far; have a_far1 := h.far'; clear h; simp only [Pa.open, Pa.last, Pipe.connect, Pipe.send, upd_eq] at *; grind
    case as => have a_as := h.as; have a_lis1 := h.lis'; have a_wr := h.wr; have a_near := h.near; have a_far := h.far; have a_far1 := h.far'; clear h; simp only [Pa.open, Pa.last, Pipe.connect, Pipe.send, upd_eq] at *; grind
    case zero => have a_zero := h.zero; have a_as := h.as; have a_lis1 := h.lis'; have a_far1 := h.far'; have a_near := h.near; have a_fd0neg := h.fd0neg; have a_ok1 := h.ok'; have a_far := h.far; clear h; simp only [Pa.open, Pa.last, Pipe.connect, Pipe.send, upd_eq] at *; grind
    case pref => have a_pref := h.pref; have a_wr := h.wr; have a_near := h.near; clear h; simp only [Pa.open, Pa.last, Pipe.connect, Pipe.send, upd_eq] at *; grind
    case dead => have a_dead := h.dead; have a_near := h.near; clear h; simp only [Pa.open, Pa.last, Pipe.connect, Pipe.send, upd_eq] at *; grind
    case far => have a_far := h.far; have a_pre := h.pre; have a_queue := h.queue; have a_far1 := h.far'; have a_near := h.near; have a_lis1 := h.lis'; have a_succ := h.succ; have a_join := h.join; have a_ok := h.ok; have a_ok1 := h.ok'; have a_fd1neg := h.fd1neg; have a_ret := h.ret; clear h; simp only [Pa.open, Pa.last, Pipe.connect, Pipe.send, upd_eq] at *; grind
    case far' => have a_far1 := h.far'; have a_near := h.near; have a_zero := h.zero; have a_lis1 := h.lis'; have a_ok1 := h.ok'; have a_pre := h.pre; have a_ok := h.ok; have a_rd := h.rd; have a_far := h.far; clear h; simp only [Pa.open, Pa.last, Pipe.connect, Pipe.send, upd_eq] at *; grind
    case rd => have a_rd := h.rd; clear h; simp only [Pa.open, Pa.last, Pipe.connect, Pipe.send, upd_eq] at *; grind
    case data => have a_data := h.data; have a_near := h.near; clear h; simp only [Pa.open, Pa.last, Pipe.connect, Pipe.send, upd_eq] at *; grind
    case queue => have a_queue := h.queue; clear h; simp only [Pa.open, Pa.last, Pipe.connect, Pipe.send, upd_eq] at *; grind
    case ok => have a_ok := h.ok; have a_data := h.data; have a_pref := h.pref; have a_far := h.far; have a_far1 := h.far'; have a_rd := h.rd; have a_sec := h.sec; have a_lis1 := h.lis'; have a_near := h.near; have a_succ := h.succ; have a_fd1neg := h.fd1neg; clear h; simp only [Pa.open, Pa.last, Pipe.connect, Pipe.send, upd_eq] at *; grind
    case ok' => have a_ok1 := h.ok'; have a_ok := h.ok; have a_far := h.far; have a_near := h.near; have a_lis1 := h.lis'; have a_zero := h.zero; have a_succ := h.succ; have a_join := h.join; clear h; simp only [Pa.open, Pa.last, Pipe.connect, Pipe.send, upd_eq] at *; grind
  · cases hs

theorem Inv.connect_step {secret : List UInt8} {p : Int × Int} {e0 : Bool} {s s' : S} (hl : secret.length = 8) (h : Inv secret p e0 s) (hs : Pipe.step s (.connect) = some s') : Inv secret p e0 s' := by
  simp only [Pipe.step, Option.ite_none_right_eq_some, Option.some.injEq] at hs
  obtain ⟨hc, rfl⟩ := hs
  constructor
  case lnz => have a_lnz := h.lnz; have a_lis1 := h.lis'; have a_pre := h.pre; have a_nochild := h.nochild; have a_succ := h.succ; have a_ret := h.ret; clear h; simp only [Pa.open, Pa.last, Pipe.connect, Pipe.send, upd_eq] at *; grind
  case sec => have a_sec := h.sec; clear h; simp only [Pa.open, Pa.last, Pipe.connect, Pipe.send, upd_eq] at *; grind
  case old => have a_old := h.old; clear h; simp only [Pa.open, Pa.last, Pipe.connect, Pipe.send, upd_eq] at *; grind
  case ena => have a_ena := h.ena; have a_old := h.old; clear h; simp only [Pa.open, Pa.last, Pipe.connect, Pipe.send, upd_eq] at *; grind
  case ret => have a_ret := h.ret; clear h; simp only [Pa.open, Pa.last, Pipe.connect, Pipe.send, upd_eq] at *; grind
  case succ => have a_succ := h.succ; clear h; simp only [Pa.open, Pa.last, Pipe.connect, Pipe.send, upd_eq] at *; grind
  case join => have a_join := h.join; have a_ret := h.ret; have a_succ := h.succ; clear h; simp only [Pa.open, Pa.last, Pipe.connect, Pipe.send, upd_eq] at *; grind
  case fault => have a_fault := h.fault; have a_ret := h.ret; have a_nochild := h.nochild; have a_join := h.join; have a_succ := h.succ; clear h; simp only [Pa.open, Pa.last, Pipe.connect, Pipe.send, upd_eq] at *; grind
  case same => have a_same := h.same; have a_succ := h.succ; have a_join := h.join; clear h; simp only [Pa.open, Pa.last, Pipe.connect, Pipe.send, upd_eq] at *; grind
  case pre => have a_pre := h.pre; clear h; intro hp; have := a_pre hp; unfold listening at hc; omega
  case nochild => have a_nochild := h.nochild; clear h; simp only [Pa.open, Pa.last, Pipe.connect, Pipe.send, upd_eq] at *; grind
  case fd0neg => have a_fd0neg := h.fd0neg; have a_ok1 := h.ok'; clear h; simp only [Pa.open, Pa.last, Pipe.connect, Pipe.send, upd_eq] at *; grind
  case fd1neg => have a_fd1neg := h.fd1neg; clear h; simp only [Pa.open, Pa.last, Pipe.connect, Pipe.send, upd_eq] at *; grind
  case lis => have a_lis := h.lis; have a_lis1 := h.lis'; have a_pre := h.pre; clear h; simp only [Pa.open, Pa.last, Pipe.connect, Pipe.send, upd_eq] at *; grind
  case lis' => have a_lis1 := h.lis'; have a_lis := h.lis; have a_pre := h.pre; have a_near := h.near; have a_far := h.far; clear h; simp only [Pa.open, Pa.last, Pipe.connect, Pipe.send, upd_eq] at *; grind
  case near => have a_near := h.near; have a_fault := h.fault; have a_pre := h.pre; have a_nochild := h.nochild; have a_fd0neg := h.fd0neg; have a_zero := h.zero; have a_as := h.as; have a_wr := h.wr; have a_lis1 := h.lis'; have a_succ := h.succ; clear h; simp only [Pa.open, Pa.last, Pipe.connect, Pipe.send, upd_eq] at *; grind
  case mine => have a_mine := h.mine; have a_nochild := h.nochild; have a_wr := h.wr; have a_as := h.as; have a_near := h.near; have a_zero := h.zero; have a_fd0neg := h.fd0neg; have a_ok1 := h.ok'; have a_succ := h.succ; have a_join := h.join; have a_lis1 := h.lis'; have a_far1 := h.far'; clear h; simp only [Pa.open, Pa.last, Pipe.connect, Pipe.send, upd_eq] at *; grind
  case wr => have a_wr := h.wr; have a_lis1 := h.lis'; have a_sec := h.sec; have a_near := h.near; have a_far := h.far; have a_far1 := h.far'; clear h; simp only [Pa.open, Pa.last, Pipe.connect, Pipe.send, upd_eq] at *; grind
  case as => have a_as := h.as; have a_lis1 := h.lis'; have a_wr := h.wr; have a_near := h.near; have a_far := h.far; have a_far1 := h.far'; clear h; simp only [Pa.open, Pa.last, Pipe.connect, Pipe.send, upd_eq] at *; grind
  case zero => have a_zero := h.zero; have a_as := h.as; have a_lis1 := h.lis'; have a_far1 := h.far'; have a_near := h.near; have a_fd0neg := h.fd0neg; have a_ok1 := h.ok'; have a_far := h.far; clear h; simp only [Pa.open, Pa.last, Pipe.connect, Pipe.send, upd_eq] at *; grind
  case pref => have a_pref := h.pref; have a_wr := h.wr; have a_near := h.near; clear h; simp only [Pa.open, Pa.last, Pipe.connect, Pipe.send, upd_eq] at *; grind
  case dead => have a_dead := h.dead; have a_near := h.near; clear h; simp only [Pa.open, Pa.last, Pipe.connect, Pipe.send, upd_eq] at *; grind
  case far => have a_far := h.far; have a_pre := h.pre; have a_queue := h.queue; have a_far1 := h.far'; have a_near := h.near; have a_lis1 := h.lis'; have a_succ := h.succ; have a_join := h.join; have a_ok := h.ok; have a_ok1 := h.ok'; have a_fd1neg := h.fd1neg; have a_ret := h.ret; clear h; simp only [Pa.open, Pa.last, Pipe.connect, Pipe.send, upd_eq] at *; grind
  case far' => have a_far1 := h.far'; have a_near := h.near; have a_zero := h.zero; have a_lis1 := h.lis'; have a_ok1 := h.ok'; have a_pre := h.pre; have a_ok := h.ok; have a_rd := h.rd; have a_far := h.far; clear h; simp only [Pa.open, Pa.last, Pipe.connect, Pipe.send, upd_eq] at *; grind
  case rd => have a_rd := h.rd; clear h; simp only [Pa.open, Pa.last, Pipe.connect, Pipe.send, upd_eq] at *; grind
  case data => have a_data := h.data; have a_near := h.near; clear h; simp only [Pa.open, Pa.last, Pipe.connect, Pipe.send, upd_eq] at *; grind
  case queue => have a_queue := h.queue; clear h; simp only [Pa.open, Pa.last, Pipe.connect, Pipe.send, upd_eq] at *; grind
  case ok => have a_ok := h.ok; have a_data := h.data; have a_pref := h.pref; have a_far := h.far; have a_far1 := h.far'; have a_rd := h.rd; have a_sec := h.sec; have a_lis1 := h.lis'; have a_near := h.near; have a_succ := h.succ; have a_fd1neg := h.fd1neg; clear h; simp only [Pa.open, Pa.last, Pipe.connect, Pipe.send, upd_eq] at *; grind
  case ok' => have a_ok1 := h.ok'; have a_ok := h.ok; have a_far := h.far; have a_near := h.near; have a_lis1 := h.lis'; have a_zero := h.zero; have a_succ := h.succ; have a_join := h.join; clear h; simp only [Pa.open, Pa.last, Pipe.connect, Pipe.send, upd_eq] at *; grind

theorem Inv.send_step {secret : List UInt8} {p : Int × Int} {e0 : Bool} {s s' : S} {c : Nat} {b : List UInt8} (hl : secret.length = 8) (h : Inv secret p e0 s) (hs : Pipe.step s (.send c b) = some s') : Inv secret p e0 s' := by
  simp only [Pipe.step, Option.ite_none_right_eq_some, Option.some.injEq] at hs
  obtain ⟨hc, rfl⟩ := hs
  constructor
  case lnz => have a_lnz := h.lnz; have a_lis1 := h.lis'; have a_pre := h.pre; have a_nochild := h.nochild; have a_succ := h.succ; have a_ret := h.ret; clear h; simp only [Pa.open, Pa.last, Pipe.connect, Pipe.send, upd_eq] at *; grind
  case sec => have a_sec := h.sec; clear h; simp only [Pa.open, Pa.last, Pipe.connect, Pipe.send, upd_eq] at *; grind
  case old => have a_old := h.old; clear h; simp only [Pa.open, Pa.last, Pipe.connect, Pipe.send, upd_eq] at *; grind
  case ena => have a_ena := h.ena; have a_old := h.old; clear h; simp only [Pa.open, Pa.last, Pipe.connect, Pipe.send, upd_eq] at *; grind
  case ret => have a_ret := h.ret; clear h; simp only [Pa.open, Pa.last, Pipe.connect, Pipe.send, upd_eq] at *; grind
  case succ => have a_succ := h.succ; clear h; simp only [Pa.open, Pa.last, Pipe.connect, Pipe.send, upd_eq] at *; grind
  case join => have a_join := h.join; have a_ret := h.ret; have a_succ := h.succ; clear h; simp only [Pa.open, Pa.last, Pipe.connect, Pipe.send, upd_eq] at *; grind
  case fault => have a_fault := h.fault; have a_ret := h.ret; have a_nochild := h.nochild; have a_join := h.join; have a_succ := h.succ; clear h; simp only [Pa.open, Pa.last, Pipe.connect, Pipe.send, upd_eq] at *; grind
  case same => have a_same := h.same; have a_succ := h.succ; have a_join := h.join; clear h; simp only [Pa.open, Pa.last, Pipe.connect, Pipe.send, upd_eq] at *; grind
  case pre => have a_pre := h.pre; clear h; simp only [Pa.open, Pa.last, Pipe.connect, Pipe.send, upd_eq] at *; grind
  case nochild => have a_nochild := h.nochild; clear h; simp only [Pa.open, Pa.last, Pipe.connect, Pipe.send, upd_eq] at *; grind
  case fd0neg => have a_fd0neg := h.fd0neg; have a_ok1 := h.ok'; clear h; simp only [Pa.open, Pa.last, Pipe.connect, Pipe.send, upd_eq] at *; grind
  case fd1neg => have a_fd1neg := h.fd1neg; clear h; simp only [Pa.open, Pa.last, Pipe.connect, Pipe.send, upd_eq] at *; grind
  case lis => have a_lis := h.lis; have a_lis1 := h.lis'; have a_pre := h.pre; clear h; simp only [Pa.open, Pa.last, Pipe.connect, Pipe.send, upd_eq] at *; grind
  case lis' => have a_lis1 := h.lis'; have a_lis := h.lis; have a_pre := h.pre; have a_near := h.near; have a_far := h.far; clear h; simp only [Pa.open, Pa.last, Pipe.connect, Pipe.send, upd_eq] at *; grind
  case near => have a_near := h.near; have a_fault := h.fault; have a_pre := h.pre; have a_nochild := h.nochild; have a_fd0neg := h.fd0neg; have a_zero := h.zero; have a_as := h.as; have a_wr := h.wr; have a_lis1 := h.lis'; have a_succ := h.succ; clear h; simp only [Pa.open, Pa.last, Pipe.connect, Pipe.send, upd_eq] at *; grind
  case mine => have a_mine := h.mine; have a_nochild := h.nochild; have a_wr := h.wr; have a_as := h.as; have a_near := h.near; have a_zero := h.zero; have a_fd0neg := h.fd0neg; have a_ok1 := h.ok'; have a_succ := h.succ; have a_join := h.join; have a_lis1 := h.lis'; have a_far1 := h.far'; clear h; simp only [Pa.open, Pa.last, Pipe.connect, Pipe.send, upd_eq] at *; grind
  case wr => have a_wr := h.wr; have a_lis1 := h.lis'; have a_sec := h.sec; have a_near := h.near; have a_far := h.far; have a_far1 := h.far'; clear h; simp only [Pa.open, Pa.last, Pipe.connect, Pipe.send, upd_eq] at *; grind
  case as => have a_as := h.as; have a_lis1 := h.lis'; have a_wr := h.wr; have a_near := h.near; have a_far := h.far; have a_far1 := h.far'; clear h; simp only [Pa.open, Pa.last, Pipe.connect, Pipe.send, upd_eq] at *; grind
  case zero => have a_zero := h.zero; have a_as := h.as; have a_lis1 := h.lis'; have a_far1 := h.far'; have a_near := h.near; have a_fd0neg := h.fd0neg; have a_ok1 := h.ok'; have a_far := h.far; clear h; simp only [Pa.open, Pa.last, Pipe.connect, Pipe.send, upd_eq] at *; grind
  case pref => have a_pref := h.pref; have a_wr := h.wr; have a_near := h.near; clear h; simp only [Pa.open, Pa.last, Pipe.connect, Pipe.send, upd_eq] at *; grind
  case dead => have a_dead := h.dead; have a_near := h.near; clear h; simp only [Pa.open, Pa.last, Pipe.connect, Pipe.send, upd_eq] at *; grind
  case far => have a_far := h.far; have a_pre := h.pre; have a_queue := h.queue; have a_far1 := h.far'; have a_near := h.near; have a_lis1 := h.lis'; have a_succ := h.succ; have a_join := h.join; have a_ok := h.ok; have a_ok1 := h.ok'; have a_fd1neg := h.fd1neg; have a_ret := h.ret; clear h; simp only [Pa.open, Pa.last, Pipe.connect, Pipe.send, upd_eq] at *; grind
  case far' => have a_far1 := h.far'; have a_near := h.near; have a_zero := h.zero; have a_lis1 := h.lis'; have a_ok1 := h.ok'; have a_pre := h.pre; have a_ok := h.ok; have a_rd := h.rd; have a_far := h.far; clear h; simp only [Pa.open, Pa.last, Pipe.connect, Pipe.send, upd_eq] at *; grind
  case rd => have a_rd := h.rd; clear h; simp only [Pa.open, Pa.last, Pipe.connect, Pipe.send, upd_eq] at *; grind
  case data => have a_data := h.data; have a_near := h.near; clear h; simp only [Pa.open, Pa.last, Pipe.connect, Pipe.send, upd_eq] at *; grind
  case queue => have a_queue := h.queue; clear h; simp only [Pa.open, Pa.last, Pipe.connect, Pipe.send, upd_eq] at *; grind
  case ok => have a_ok := h.ok; have a_data := h.data; have a_pref := h.pref; have a_far := h.far; have a_far1 := h.far'; have a_rd := h.rd; have a_sec := h.sec; have a_lis1 := h.lis'; have a_near := h.near; have a_succ := h.succ; have a_fd1neg := h.fd1neg; clear h; simp only [Pa.open, Pa.last, Pipe.connect, Pipe.send, upd_eq] at *; grind
  case ok' => have a_ok1 := h.ok'; have a_sec := h.sec; clear h; simp only [Pa.open, Pa.last, Pipe.connect, Pipe.send, upd_eq] at *; have := @take8; grind

theorem Inv.hangup_step {secret : List UInt8} {p : Int × Int} {e0 : Bool} {s s' : S} {c : Nat} (hl : secret.length = 8) (h : Inv secret p e0 s) (hs : Pipe.step s (.hangup c) = some s') : Inv secret p e0 s' := by
  simp only [Pipe.step, Option.ite_none_right_eq_some, Option.some.injEq] at hs
  obtain ⟨hc, rfl⟩ := hs
  constructor
  case lnz => have a_lnz := h.lnz; have a_lis1 := h.lis'; have a_pre := h.pre; have a_nochild := h.nochild; have a_succ := h.succ; have a_ret := h.ret; clear h; simp only [Pa.open, Pa.last, Pipe.connect, Pipe.send, upd_eq] at *; grind
  case sec => have a_sec := h.sec; clear h; simp only [Pa.open, Pa.last, Pipe.connect, Pipe.send, upd_eq] at *; grind
  case old => have a_old := h.old; clear h; simp only [Pa.open, Pa.last, Pipe.connect, Pipe.send, upd_eq] at *; grind
  case ena => have a_ena := h.ena; have a_old := h.old; clear h; simp only [Pa.open, Pa.last, Pipe.connect, Pipe.send, upd_eq] at *; grind
  case ret => have a_ret := h.ret; clear h; simp only [Pa.open, Pa.last, Pipe.connect, Pipe.send, upd_eq] at *; grind
  case succ => have a_succ := h.succ; clear h; simp only [Pa.open, Pa.last, Pipe.connect, Pipe.send, upd_eq] at *; grind
  case join => have a_join := h.join; have a_ret := h.ret; have a_succ := h.succ; clear h; simp only [Pa.open, Pa.last, Pipe.connect, Pipe.send, upd_eq] at *; grind
  case fault => have a_fault := h.fault; have a_ret := h.ret; have a_nochild := h.nochild; have a_join := h.join; have a_succ := h.succ; clear h; simp only [Pa.open, Pa.last, Pipe.connect, Pipe.send, upd_eq] at *; grind
  case same => have a_same := h.same; have a_succ := h.succ; have a_join := h.join; clear h; simp only [Pa.open, Pa.last, Pipe.connect, Pipe.send, upd_eq] at *; grind
  case pre => have a_pre := h.pre; clear h; simp only [Pa.open, Pa.last, Pipe.connect, Pipe.send, upd_eq] at *; grind
  case nochild => have a_nochild := h.nochild; clear h; simp only [Pa.open, Pa.last, Pipe.connect, Pipe.send, upd_eq] at *; grind
  case fd0neg => have a_fd0neg := h.fd0neg; have a_ok1 := h.ok'; clear h; simp only [Pa.open, Pa.last, Pipe.connect, Pipe.send, upd_eq] at *; grind
  case fd1neg => have a_fd1neg := h.fd1neg; clear h; simp only [Pa.open, Pa.last, Pipe.connect, Pipe.send, upd_eq] at *; grind
  case lis => have a_lis := h.lis; have a_lis1 := h.lis'; have a_pre := h.pre; clear h; simp only [Pa.open, Pa.last, Pipe.connect, Pipe.send, upd_eq] at *; grind
  case lis' => have a_lis1 := h.lis'; have a_lis := h.lis; have a_pre := h.pre; have a_near := h.near; have a_far := h.far; clear h; simp only [Pa.open, Pa.last, Pipe.connect, Pipe.send, upd_eq] at *; grind
  case near => have a_near := h.near; have a_fault := h.fault; have a_pre := h.pre; have a_nochild := h.nochild; have a_fd0neg := h.fd0neg; have a_zero := h.zero; have a_as := h.as; have a_wr := h.wr; have a_lis1 := h.lis'; have a_succ := h.succ; clear h; simp only [Pa.open, Pa.last, Pipe.connect, Pipe.send, upd_eq] at *; grind
  case mine => have a_mine := h.mine; have a_nochild := h.nochild; have a_wr := h.wr; have a_as := h.as; have a_near := h.near; have a_zero := h.zero; have a_fd0neg := h.fd0neg; have a_ok1 := h.ok'; have a_succ := h.succ; have a_join := h.join; have a_lis1 := h.lis'; have a_far1 := h.far'; clear h; simp only [Pa.open, Pa.last, Pipe.connect, Pipe.send, upd_eq] at *; grind
  case wr => have a_wr := h.wr; have a_lis1 := h.lis'; have a_sec := h.sec; have a_near := h.near; have a_far := h.far; have a_far1 := h.far'; clear h; simp only [Pa.open, Pa.last, Pipe.connect, Pipe.send, upd_eq] at *; grind
  case as => have a_as := h.as; have a_lis1 := h.lis'; have a_wr := h.wr; have a_near := h.near; have a_far := h.far; have a_far1 := h.far'; clear h; simp only [Pa.open, Pa.last, Pipe.connect, Pipe.send, upd_eq] at *; grind
  case zero => have a_zero := h.zero; have a_as := h.as; have a_lis1 := h.lis'; have a_far1 := h.far'; have a_near := h.near; have a_fd0neg := h.fd0neg; have a_ok1 := h.ok'; have a_far := h.far; clear h; simp only [Pa.open, Pa.last, Pipe.connect, Pipe.send, upd_eq] at *; grind
  case pref => have a_pref := h.pref; have a_wr := h.wr; have a_near := h.near; clear h; simp only [Pa.open, Pa.last, Pipe.connect, Pipe.send, upd_eq] at *; grind
  case dead => have a_dead := h.dead; have a_near := h.near; clear h; simp only [Pa.open, Pa.last, Pipe.connect, Pipe.send, upd_eq] at *; grind
  case far => have a_far := h.far; have a_pre := h.pre; have a_queue := h.queue; have a_far1 := h.far'; have a_near := h.near; have a_lis1 := h.lis'; have a_succ := h.succ; have a_join := h.join; have a_ok := h.ok; have a_ok1 := h.ok'; have a_fd1neg := h.fd1neg; have a_ret := h.ret; clear h; simp only [Pa.open, Pa.last, Pipe.connect, Pipe.send, upd_eq] at *; grind
  case far' => have a_far1 := h.far'; have a_near := h.near; have a_zero := h.zero; have a_lis1 := h.lis'; have a_ok1 := h.ok'; have a_pre := h.pre; have a_ok := h.ok; have a_rd := h.rd; have a_far := h.far; clear h; simp only [Pa.open, Pa.last, Pipe.connect, Pipe.send, upd_eq] at *; grind
  case rd => have a_rd := h.rd; clear h; simp only [Pa.open, Pa.last, Pipe.connect, Pipe.send, upd_eq] at *; grind
  case data => have a_data := h.data; have a_near := h.near; clear h; simp only [Pa.open, Pa.last, Pipe.connect, Pipe.send, upd_eq] at *; grind
  case queue => have a_queue := h.queue; clear h; simp only [Pa.open, Pa.last, Pipe.connect, Pipe.send, upd_eq] at *; grind
  case ok => have a_ok := h.ok; have a_data := h.data; have a_pref := h.pref; have a_far := h.far; have a_far1 := h.far'; have a_rd := h.rd; have a_sec := h.sec; have a_lis1 := h.lis'; have a_near := h.near; have a_succ := h.succ; have a_fd1neg := h.fd1neg; clear h; simp only [Pa.open, Pa.last, Pipe.connect, Pipe.send, upd_eq] at *; grind
  case ok' => have a_ok1 := h.ok'; have a_ok := h.ok; have a_far := h.far; have a_near := h.near; have a_lis1 := h.lis'; have a_zero := h.zero; have a_succ := h.succ; have a_join := h.join; clear h; simp only [Pa.open, Pa.last, Pipe.connect, Pipe.send, upd_eq] at *; grind

theorem Inv.reach {secret : List UInt8} {p : Int × Int} {e0 : Bool} {e : Int} {s : S} (hl : secret.length = 8) (h : Reach (Pipe.init secret p e0 e) s) : Inv secret p e0 s := by
  induction h with
  | init => exact Inv.init
  | @step s s' ev _ hs ih =>
    cases ev with
    | serveOk _ => exact ih.serveOk_step hl hs
    | serveErr _ => exact ih.serveErr_step hl hs
    | startOk => exact ih.startOk_step hl hs
    | startErr _ => exact ih.startErr_step hl hs
    | acceptOk _ => exact ih.acceptOk_step hl hs
    | acceptErr _ => exact ih.acceptErr_step hl hs
    | readOk => exact ih.readOk_step hl hs
    | readErr _ => exact ih.readErr_step hl hs
    | closeLn => exact ih.closeLn_step hl hs
    | joined => exact ih.joined_step hl hs
    | closeFds => exact ih.closeFds_step hl hs
    | dialOk _ => exact ih.dialOk_step hl hs
    | dialErr _ _ => exact ih.dialErr_step hl hs
    | sent _ => exact ih.sent_step hl hs
    | written => exact ih.written_step hl hs
    | assign => exact ih.assign_step hl hs
    | killed => exact ih.killed_step hl hs
    | connect => exact ih.connect_step hl hs
    | send _ _ => exact ih.send_step hl hs
    | hangup _ => exact ih.hangup_step hl hs

end Neco.Pipe
