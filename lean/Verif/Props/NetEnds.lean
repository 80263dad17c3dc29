import Verif.Props.Net
import Verif.Props.IoEnds

/-! # C63, C64: undisturbed calls of `neco_accept` and `neco_connect` come back -/

namespace Neco.Net
open Neco.Err Neco.Io Neco.Burst

/-- in this round nobody cancels the caller, it is not marked as expired and the deadline is not reached -/
def Quiet {σ : Type} (dl : Int) (t : Turn σ) : Prop := t.cancel = false ∧ t.expire = false ∧ (dl < MAX → t.now ≤ dl)

theorem acceptDl_ends {dl : Int} {fd : Nat} {t : Turn SysFd} {post : List (Turn SysFd)} (ht : t.sys = .got fd) (hq : Quiet dl t) :
    ∀ (pre : List (Turn SysFd)) (s : S), s.fds = [] → s.w.canceled = false → s.w.deadlined = false → (∀ u ∈ pre, Quiet dl u ∧ (u.sys = .err sysEINTR ∨ u.sys = .err sysEAGAIN)) →
      ∃ s', acceptDl dl none (pre ++ t :: post) s = some (.ret fd, s') ∧ s'.fds = [(fd, { st := .accepted, nonblock := true })]
  | [], s, h0, h1, h2, _ => by
    rw [List.nil_append, acceptDl, checkdl_calm h1 h2 hq.2.2]
    simp [ht, openFd, getFd, h0, setNonblock, setFd]
  | u :: pre, s, h0, h1, h2, hp => by
    obtain ⟨⟨u1, u2, u3⟩, u4⟩ := hp u (by simp)
    obtain ⟨e, he, ha⟩ : ∃ e, u.sys = .err e ∧ (e = sysEINTR ∨ e = sysEAGAIN) := by
      rcases u4 with u4 | u4
      · exact ⟨_, u4, .inl rfl⟩
      · exact ⟨_, u4, .inr rfl⟩
    rw [List.cons_append, acceptDl, checkdl_calm h1 h2 u3]
    simp only [ne_eq, not_true, if_false, he, if_pos ha, S.err, pass, h1, u1, u2, Bool.or_self, Bool.false_and, Bool.false_eq_true]
    exact acceptDl_ends ht hq pre _ h0 rfl rfl (fun v hv => hp v (by simp [hv]))

/-- **C63** a `neco_accept` that nobody cancels and that is not late returns the descriptor of the new connection as soon as there is one -/
theorem C63_accept_ends {dl : Int} {fd : Nat} {t : Turn SysFd} {pre post : List (Turn SysFd)} {w : W} (ht : t.sys = .got fd) (hq : Quiet dl t) (h1 : w.canceled = false) (h2 : w.deadlined = false)
    (hp : ∀ u ∈ pre, Quiet dl u ∧ (u.sys = .err sysEINTR ∨ u.sys = .err sysEAGAIN)) :
    ∃ s', accept true dl none (pre ++ t :: post) { w := w } = some (.ret fd, s') ∧ s'.fds = [(fd, { st := .accepted, nonblock := true })] := by
  obtain ⟨s', q1, q2⟩ := acceptDl_ends (post := post) ht hq pre { w := w } rfl h1 h2 hp
  unfold accept
  simp only [Bool.not_true, Bool.false_eq_true, if_false, q1, Option.map_some, finish]
  rw [guardA_nonneg s'.w (by omega)]
  exact ⟨_, rfl, q2⟩

theorem connectDl_up {a : Addr} {dl : Int} {t : Turn SysC} {post : List (Turn SysC)} (ht : t.sys = { bg := .up, r := .isconn }) (hq : Quiet dl t) :
    ∀ (mid : List (Turn SysC)) (k : Sock) (w : W), k.st = .connecting a → w.canceled = false → w.deadlined = false → (∀ u ∈ mid, Quiet dl u ∧ ∃ b, u.sys = { bg := .none, r := .intr b }) →
      ∃ w', connectDl a dl true (mid ++ t :: post) k w = some (.ret 0, { k with st := .connected a }, w')
  | [], k, w, h0, h1, h2, _ => by
    rw [List.nil_append, connectDl, checkdl_calm h1 h2 hq.2.2]
    simp [ht, bg, h0, kconnect]
  | u :: mid, k, w, h0, h1, h2, hp => by
    obtain ⟨⟨u1, u2, u3⟩, b, u4⟩ := hp u (by simp)
    rw [List.cons_append, connectDl, checkdl_calm h1 h2 u3]
    simp only [ne_eq, not_true, if_false, u4, bg, h0, Option.bind_some, kconnect]
    obtain ⟨w', q⟩ := connectDl_up (post := post) ht hq mid { k with st := .connecting a } { w with errno := Cr.errno (.intr b) } rfl h1 h2 (fun v hv => hp v (by simp [hv]))
    exact ⟨w', q⟩

theorem connectDl_ends {a : Addr} {dl : Int} {t0 t : Turn SysC} {mid post : List (Turn SysC)} (h0 : t0.sys = { bg := .none, r := .inprogress }) (hq0 : Quiet dl t0)
    (ht : t.sys = { bg := .up, r := .isconn }) (hq : Quiet dl t) (hm : ∀ u ∈ mid, Quiet dl u ∧ ∃ b, u.sys = { bg := .none, r := .intr b }) :
    ∀ (pre : List (Turn SysC)) (k : Sock) (w : W), (k.st = .fresh ∨ ∃ b, k.st = .bound b) → w.canceled = false → w.deadlined = false →
      (∀ u ∈ pre, Quiet dl u ∧ (u.sys = { bg := .none, r := .intr false } ∨ u.sys = { bg := .none, r := .nomem })) →
      ∃ w', connectDl a dl false (pre ++ t0 :: (mid ++ t :: post)) k w = some (.ret 0, { k with st := .connected a }, w')
  | [], k, w, hk, h1, h2, _ => by
    obtain ⟨w', q⟩ := connectDl_up (post := post) ht hq mid { k with st := .connecting a } { w with errno := Cr.errno .inprogress, canceled := false, deadlined := false } rfl rfl rfl hm
    rw [List.nil_append, connectDl, checkdl_calm h1 h2 hq0.2.2]
    rcases hk with hk | ⟨b, hk⟩ <;>
    · simp only [ne_eq, not_true, if_false, h0, bg, hk, Option.bind_some, kconnect, pass, h1, hq0.1, hq0.2.1, Bool.or_self, Bool.false_and, Bool.false_eq_true]
      exact ⟨w', q⟩
  | u :: pre, k, w, hk, h1, h2, hp => by
    obtain ⟨⟨u1, u2, u3⟩, u4⟩ := hp u (by simp)
    rw [List.cons_append, connectDl, checkdl_calm h1 h2 u3]
    have go : ∀ (k' : Sock) (e : Int), k'.nonblock = k.nonblock → (k'.st = .fresh ∨ ∃ b, k'.st = .bound b) →
        ∃ w', connectDl a dl false (pre ++ t0 :: (mid ++ t :: post)) k' { w with errno := e } = some (.ret 0, { k with st := .connected a }, w') := by
      intro k' e hnb hk'
      obtain ⟨w', q⟩ := connectDl_ends (post := post) h0 hq0 ht hq hm pre k' { w with errno := e } hk' h1 h2 (fun v hv => hp v (by simp [hv]))
      exact ⟨w', by rw [q, hnb]⟩
    rcases hk with hk | ⟨b, hk⟩ <;> rcases u4 with u4 | u4 <;> simp only [ne_eq, not_true, if_false, u4, bg, hk, Option.bind_some, kconnect, Bool.false_eq_true]
    · exact go _ _ rfl (.inl rfl)
    · exact go _ _ rfl (.inl rfl)
    · exact go _ _ rfl (.inr ⟨b, rfl⟩)
    · exact go _ _ rfl (.inr ⟨b, rfl⟩)

/-- **C64** a `neco_connect` on a socket that is fresh or bound, that nobody cancels and that is not late, to a peer that answers: however often it is interrupted before or while it waits, it returns 0 -/
theorem C64_ends {a : Addr} {dl : Int} {t0 t : Turn SysC} {pre mid post : List (Turn SysC)} {k : Sock} {w : W} (hk : k.st = .fresh ∨ ∃ b, k.st = .bound b) (h1 : w.canceled = false) (h2 : w.deadlined = false)
    (hp : ∀ u ∈ pre, Quiet dl u ∧ (u.sys = { bg := .none, r := .intr false } ∨ u.sys = { bg := .none, r := .nomem }))
    (h0 : t0.sys = { bg := .none, r := .inprogress }) (hq0 : Quiet dl t0) (hm : ∀ u ∈ mid, Quiet dl u ∧ ∃ b, u.sys = { bg := .none, r := .intr b })
    (ht : t.sys = { bg := .up, r := .isconn }) (hq : Quiet dl t) :
    ∃ w', connect a dl (pre ++ t0 :: (mid ++ t :: post)) k w = some (.ret 0, { k with st := .connected a }, w') := by
  obtain ⟨w', q⟩ := connectDl_ends (a := a) (post := post) h0 hq0 ht hq hm pre k w hk h1 h2 hp
  unfold connect
  rw [q]
  simp only [Option.map_some]
  rw [guardA_nonneg w' (by decide)]
  exact ⟨_, rfl⟩

/-- an error other than a cancelation is returned -/
theorem guardA_err {w : W} (h : w.errno ≠ sysECANCELED) : (guardA (.ret (-1)) w).1 = .ret (-1) := by
  cases hg : (guardA (.ret (-1)) w).1 with
  | exit =>
    rcases (guardA_exit hg).2 with ⟨_, h2⟩ | h2
    · exact absurd h2 h
    · exact absurd h2 (by decide)
  | ret n => rw [← guardA_ret hg]

/-- **C64** what the kernel says at once is told at once: a unix socket whose listener has no room (`EAGAIN`) as `ECONNREFUSED`, a socket that is connecting already, and one that is connected, accepted or listening as such; the socket stays as it was -/
theorem C64_at_once {a : Addr} {dl : Int} {t : Turn SysC} {post : List (Turn SysC)} {k : Sock} {w : W} (h1 : w.canceled = false) (h2 : w.deadlined = false) (hl : dl < MAX → t.now ≤ dl) {e : Int}
    (h : ((k.st = .fresh ∨ ∃ b, k.st = .bound b) ∧ t.sys = { bg := .none, r := .again } ∧ e = 111) ∨ ((∃ b, k.st = .connecting b) ∧ t.sys = { bg := .none, r := .already } ∧ e = 114) ∨
      ((k.st = .accepted ∨ ∃ b, k.st = .connected b ∨ k.st = .listening b) ∧ t.sys = { bg := .none, r := .isconn } ∧ e = 106)) :
    ∃ w', connect a dl (t :: post) k w = some (.ret (-1), k, w') ∧ w'.errno = e := by
  have key : connectDl a dl false (t :: post) k w = some (.ret (-1), k, { w with errno := e }) := by
    rw [connectDl, checkdl_calm h1 h2 hl]
    obtain ⟨nb, st⟩ := k
    rcases h with ⟨hk | ⟨b, hk⟩, ht, rfl⟩ | ⟨⟨b, hk⟩, ht, rfl⟩ | ⟨hk | ⟨b, hk | hk⟩, ht, rfl⟩ <;> (cases hk; simp [ht, bg, kconnect, Cr.errno]; try rfl)
  have he : e ≠ sysECANCELED := by rcases h with ⟨_, _, rfl⟩ | ⟨_, _, rfl⟩ | ⟨_, _, rfl⟩ <;> decide
  unfold connect
  rw [key]
  simp only [Option.map_some]
  rw [guardA_err (by exact he)]
  exact ⟨_, rfl, (guardA_w _ _).2.2.2.1⟩

/-- an accept that is interrupted and waits once; a connect that is short of memory once, waits, and is interrupted -/
example : ∃ s', accept true 9 none [{ sys := .err sysEINTR }, { sys := .err sysEAGAIN, now := 3 }, { sys := .got 7, now := 9 }] { w := {} } = some (.ret 7, s') ∧ s'.fds = [(7, { st := .accepted, nonblock := true })] :=
  C63_accept_ends (pre := [{ sys := .err sysEINTR }, { sys := .err sysEAGAIN, now := 3 }]) (post := []) rfl (by simp [Quiet]) rfl rfl (by intro u hu; simp at hu; rcases hu with rfl | rfl <;> simp [Quiet])
example (a : Addr) : ∃ w', connect a MAX [{ sys := { r := .nomem } }, { sys := { r := .inprogress } }, { sys := { r := .intr true } }, { sys := { bg := .up, r := .isconn } }] {} {} = some (.ret 0, { st := .connected a }, w') :=
  C64_ends (pre := [{ sys := { r := .nomem } }]) (mid := [{ sys := { r := .intr true } }]) (post := []) (.inl rfl) rfl rfl (by intro u hu; simp at hu; subst hu; simp [Quiet]) rfl (by simp [Quiet])
    (by intro u hu; simp at hu; subst hu; simp [Quiet]) rfl (by simp [Quiet])

/-- an accepted socket is connected again; the error is told -/
example (a : Addr) : ∃ w', connect a MAX [{ sys := { r := .isconn } }] { st := .accepted, nonblock := true } {} = some (.ret (-1), { st := .accepted, nonblock := true }, w') ∧ w'.errno = 106 :=
  C64_at_once rfl rfl (by decide) (.inr (.inr ⟨.inl rfl, rfl, rfl⟩))

end Neco.Net
