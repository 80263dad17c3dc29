import Verif.Props.NetEnds

/-! # C62: an undisturbed `neco_dial` comes back with a connection if one of the addresses answers -/

namespace Neco.Net
open Neco.Err Neco.Io Neco.Burst

/-- an attempt to an address that answers, undisturbed -/
def Works (dl : Int) (t : Att) : Prop :=
  ∃ fd pre t0 mid t1 post, t.sock = .got fd ∧ t.nb = none ∧ t.ts = pre ++ t0 :: (mid ++ t1 :: post) ∧
    (∀ u ∈ pre, Quiet dl u ∧ (u.sys = { bg := .none, r := .intr false } ∨ u.sys = { bg := .none, r := .nomem })) ∧
    t0.sys = { bg := .none, r := .inprogress } ∧ Quiet dl t0 ∧ (∀ u ∈ mid, Quiet dl u ∧ ∃ b, u.sys = { bg := .none, r := .intr b }) ∧
    t1.sys = { bg := .up, r := .isconn } ∧ Quiet dl t1

/-- an attempt that fails, undisturbed: no socket is to be had, or `connect` reports an error -/
def Fails (dl : Int) (t : Att) : Prop :=
  (∃ e, t.sock = .err e) ∨ ∃ fd e u post, t.sock = .got fd ∧ t.nb = none ∧ t.ts = u :: post ∧ Quiet dl u ∧ u.sys = { bg := .none, r := .err e } ∧ other e ∧ e ≠ sysECANCELED

theorem dialConnect_works {a : Addr} {dl : Int} {t : Att} {s : S} (ht : Works dl t) (h0 : s.fds = []) (h1 : s.w.canceled = false) (h2 : s.w.deadlined = false) :
    ∃ (fd : Nat) (s' : S), dialConnect a dl t s = some (.ret fd, s') ∧ s'.tried = s.tried ++ [a] := by
  obtain ⟨fd, pre, t0, mid, t1, post, q1, q2, q3, q4, q5, q6, q7, q8, q9⟩ := ht
  obtain ⟨w', x⟩ := C64_ends (a := a) (k := { nonblock := true }) (w := s.w) (post := post) (.inl rfl) h1 h2 q4 q5 q6 q7 q8 q9
  rw [← q3] at x
  unfold dialConnect
  simp only [q1, q2, openFd, getFd, h0, List.find?_nil, Option.map_none, Option.isSome_none, Bool.false_eq_true, if_false, Option.bind_some, setNonblock, List.find?_cons, beq_self_eq_true, Option.map_some, setFd,
    List.map_cons, List.map_nil, if_true, push, x]
  exact ⟨fd, _, rfl, by simp [pop, runH, close, S.err]⟩

theorem dialConnect_fails {a : Addr} {dl : Int} {t : Att} {s : S} (ht : Fails dl t) (h0 : s.fds = []) (h1 : s.w.canceled = false) (h2 : s.w.deadlined = false) :
    ∃ s' : S, dialConnect a dl t s = some (.ret (-1), s') ∧ s'.tried = s.tried ++ [a] ∧ s'.fds = [] ∧ s'.w.canceled = false ∧ s'.w.deadlined = false := by
  rcases ht with ⟨e, he⟩ | ⟨fd, e, u, post, q1, q2, q3, q4, q5, q6, q7⟩
  · unfold dialConnect
    simp only [he]
    exact ⟨_, rfl, rfl, h0, h1, h2⟩
  · have x : connect a dl t.ts { nonblock := true } s.w = some (.ret (-1), { nonblock := true }, (guardA (.ret (-1)) { s.w with errno := e }).2) := by
      unfold connect
      rw [q3, connectDl, checkdl_calm h1 h2 q4.2.2]
      simp only [ne_eq, not_true, if_false, q5, bg, Option.bind_some, kconnect, if_pos q6, Option.map_some, Cr.errno]
      rw [guardA_err q7]
    obtain ⟨_, _, _, _, g5, g6, _⟩ := guardA_w (.ret (-1)) { s.w with errno := e }
    unfold dialConnect
    simp only [q1, q2, openFd, getFd, h0, List.find?_nil, Option.map_none, Option.isSome_none, Bool.false_eq_true, if_false, Option.bind_some, setNonblock, List.find?_cons, beq_self_eq_true, Option.map_some, setFd,
      List.map_cons, List.map_nil, if_true, push, x]
    refine ⟨_, rfl, ?_⟩
    simp [pop, runH, close, getFd, show ¬ ((fd : Int) < 0) by omega]
    exact ⟨g5.trans h1, g6.trans h2⟩

theorem dialLoop_ends {dl : Int} {a : Addr} {rest : List Addr} {good : Att} {more : List Att} (hg : Works dl good) :
    ∀ (bad : List Addr) (fails : List Att) (s : S), bad.length = fails.length → (∀ t ∈ fails, Fails dl t) → s.fds = [] → s.w.canceled = false → s.w.deadlined = false →
      ∃ (fd : Nat) (s' : S), dialLoop dl (bad ++ a :: rest) (fails ++ good :: more) s = some (.ret fd, s') ∧ s'.tried = s.tried ++ (bad ++ [a])
  | [], [], s, _, _, h0, h1, h2 => by
    obtain ⟨fd, s', q1, q2⟩ := dialConnect_works (a := a) hg h0 h1 h2
    rw [List.nil_append, List.nil_append, dialLoop, q1]
    dsimp only
    rw [if_pos (by omega)]
    exact ⟨fd, s', rfl, q2⟩
  | b :: bad, t :: fails, s, hl, hf, h0, h1, h2 => by
    obtain ⟨s1, q1, q2, q3, q4, q5⟩ := dialConnect_fails (a := b) (hf t (by simp)) h0 h1 h2
    obtain ⟨fd, s', x1, x2⟩ := dialLoop_ends (a := a) (rest := rest) (more := more) hg bad fails s1 (by simpa using hl) (fun u hu => hf u (by simp [hu])) q3 q4 q5
    rw [List.cons_append, List.cons_append, dialLoop, q1]
    dsimp only
    rw [if_neg (by simp)]
    exact ⟨fd, s', x1, by rw [x2, q2]; simp⟩
  | [], _ :: _, _, hl, _, _, _, _ => by simp at hl
  | _ :: _, [], _, hl, _, _, _, _ => by simp at hl

theorem runH_tried (s : S) (h : Hdl) : (runH s h).tried = s.tried := by
  cases h <;> simp only [runH, close, free] <;> (repeat' split) <;> rfl
theorem pop_tried (s : S) : (pop s).tried = s.tried := by
  unfold pop; split
  · exact runH_tried _ _
  · rfl

/-- **C62** an undisturbed `neco_dial` to an address that is well-formed and a name that is known: if one of its addresses answers, however many before it fail, then the call returns
a descriptor, non-blocking and connected to the first address that answers, and nothing else is left of the call -/
theorem C62_ends {network : String} {addr host port : List UInt8} {dl : Int} {x : Dial} {w : W} {h m : Nat} {bad rest : List Addr} {a : Addr} {fails more : List Att} {good : Att}
    (hn : network = "tcp" ∨ network = "tcp4" ∨ network = "tcp6") (hp : Addr.parse addr true = some (.ok host port)) (hh : x.look.host = some h) (hm : x.look.res = .ok m (bad ++ a :: rest)) (hne : m ≠ h)
    (hc : x.look.canceled = false) (hd : x.look.deadlined = false) (ha : x.atts = fails ++ good :: more) (hl : bad.length = fails.length) (hf : ∀ t ∈ fails, Fails dl t) (hg : Works dl good) :
    ∃ (fd : Nat) (s' : S), dial true (some network) (some addr) dl x { w := w } = some (.ret fd, s') ∧ Only s' fd ⟨true, .connected a⟩ ∧ s'.tried = bad ++ [a] := by
  have key : ∀ vers, ∃ (fd : Nat) (s' : S), dialTcp addr vers dl x { w := w } = some (.ret fd, s') ∧ s'.tried = bad ++ [a] := by
    intro vers
    have hlk : ∃ b l, b :: l = bad ++ a :: rest ∧ ∃ s1, lookup addr vers x.look { w := w } = some (.ok m b l, s1) ∧ s1.fds = [] ∧ s1.w.canceled = false ∧ s1.w.deadlined = false ∧ s1.tried = [] := by
      obtain ⟨b, l, e⟩ : ∃ b l, bad ++ a :: rest = b :: l := by cases bad with
        | nil => exact ⟨_, _, rfl⟩
        | cons b bad => exact ⟨_, _, rfl⟩
      refine ⟨b, l, e.symm, ?_⟩
      unfold lookup
      rw [hh, hm, e]
      simp only [Option.isSome_some, hp, List.not_mem_nil, if_false, push, List.mem_singleton, hne]
      refine ⟨_, rfl, ?_⟩
      simp [pop, runH, free, hc, hd]
    obtain ⟨b, l, e1, s1, e2, e3, e4, e5, e6⟩ := hlk
    obtain ⟨fd, s', y1, y2⟩ := dialLoop_ends (a := a) (rest := rest) (more := more) hg bad fails (push s1 (.free m)) hl hf e3 e4 e5
    unfold dialTcp
    rw [e2]
    dsimp only
    rw [e1, ha, y1]
    dsimp only
    rw [if_neg (by omega)]
    refine ⟨fd, _, rfl, ?_⟩
    rw [pop_tried, y2]
    simp [push, e6]
  have fin : ∃ (fd : Nat) (s' : S), dial true (some network) (some addr) dl x { w := w } = some (.ret fd, s') ∧ s'.tried = bad ++ [a] := by
    have go : ∀ vers, dial true (some network) (some addr) dl x { w := w } = (dialTcp addr vers dl x { w := w }).map (fun (r, s) => finish guardE r s) →
        ∃ (fd : Nat) (s' : S), dial true (some network) (some addr) dl x { w := w } = some (.ret fd, s') ∧ s'.tried = bad ++ [a] := by
      intro vers hv
      obtain ⟨fd, s', q1, q2⟩ := key vers
      rw [hv, q1]
      simp only [Option.map_some, finish, guardE_r]
      exact ⟨fd, _, rfl, q2⟩
    rcases hn with rfl | rfl | rfl
    · exact go 0 (by simp [dial])
    · exact go 2 (by simp [dial])
    · exact go 10 (by simp [dial])
  obtain ⟨fd, s', q1, q2⟩ := fin
  obtain ⟨b, _, y2, _, y4⟩ := C62_ok q1 (by omega)
  rw [q2] at y4
  simp at y4
  subst y4
  exact ⟨fd, s', q1, y2, q2⟩

/-- three addresses: for the first there is no socket, the second refuses, the third answers after an interruption -/
example : ∃ (fd : Nat) (s' : S), dial true (some "tcp") (some "a:80".toUTF8.toList) 9 { look := { host := some 1, res := .ok 2 ([.ip 1, .ip 2] ++ .ip 3 :: []) }, atts :=
    [{ sock := .err 24, ts := [] }, { sock := .got 5, ts := [{ sys := { r := .err 113 }, now := 3 }] }] ++
    { sock := .got 5, ts := [] ++ { sys := { r := .inprogress }, now := 4 } :: ([{ sys := { r := .intr true } }] ++ { sys := { bg := .up, r := .isconn }, now := 8 } :: []) } :: [] } { w := {} } = some (.ret fd, s') ∧
    Only s' fd ⟨true, .connected (.ip 3)⟩ ∧ s'.tried = [.ip 1, .ip 2] ++ [.ip 3] :=
  C62_ends (host := "a".toUTF8.toList) (port := "80".toUTF8.toList) (.inl rfl) (by decide +kernel) rfl rfl (by decide) rfl rfl rfl rfl
    (by
      intro t ht
      simp at ht
      rcases ht with rfl | rfl
      · exact .inl ⟨24, rfl⟩
      · exact .inr ⟨5, 113, _, _, rfl, rfl, rfl, by simp [Quiet], rfl, by decide, by decide⟩)
    ⟨5, [], _, _, _, [], rfl, rfl, rfl, by simp, rfl, by simp [Quiet], by intro u hu; simp at hu; subst hu; exact ⟨by simp [Quiet], true, rfl⟩, rfl, by simp [Quiet]⟩

end Neco.Net
