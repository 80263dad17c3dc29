import Verif.Model.Look

/-!
# C83: what is reported about a failed name lookup
-/

namespace Neco.Look
open Neco.Err

/-- no restriction -/
def any : Act → Prop := fun _ => True

/-- What holds of an event, by the code alone. -/
def Ok : Ev → Prop
  | .ret _ .direct c r _ _ errno lasterr _ =>
    c = r ∧ lasterr = if c = 0 then OK else if c = EAI_SYSTEM then fromSys errno else GAIERROR
  | .ret _ .dial c r _ n errno lasterr gai =>
    lasterr = c ∧ c < 0 ∧
    (r = EAI_MEMORY → c = NOMEM) ∧
    (r = EAI_SYSTEM → c = fromSys errno) ∧
    (r ≠ EAI_MEMORY → r ≠ EAI_SYSTEM → r ≠ 0 → c = GAIERROR ∧ gai = r) ∧
    (r = 0 → n = true ∧ c = GAIERROR ∧ gai = EAI_FAIL)
  | _ => True

theorem fromSys_neg (e : Int) : fromSys e < 0 := by
  unfold fromSys
  repeat' split
  all_goals decide

theorem errorGuard_fromSys (e : Int) : (errorGuard (fromSys e) e false).lasterr = fromSys e := by
  unfold errorGuard
  rw [if_pos (fromSys_neg e)]
  dsimp only
  split <;> rfl

theorem guard_lasterr (c e : Int) (b : Bool) : (asyncErrorGuard c e false b).lasterr = (errorGuard c e false).lasterr := by
  unfold asyncErrorGuard
  dsimp only
  split
  · rfl
  · split <;> rfl

theorem finish_log (s : S) (i : Nat) (v : Via) (r e : Int) (n : Bool) :
    ∃ x, (finish s i v r e n).log = x :: s.log ∧ Ok x := by
  unfold finish
  dsimp only
  split
  · exact ⟨.gone i, rfl, trivial⟩
  cases v with
  | direct =>
    refine ⟨.ret i .direct r r e n s.errno _ s.gai, rfl, rfl, ?_⟩
    rw [guard_lasterr]
    unfold necoErr
    by_cases h0 : r = 0
    · rw [if_pos h0, if_pos h0]; rfl
    · rw [if_neg h0, if_neg h0]
      by_cases h1 : r = EAI_SYSTEM
      · rw [if_pos h1, if_pos h1]; rfl
      · rw [if_neg h1, if_neg h1]; rfl
  | dial =>
    dsimp only
    by_cases h0 : r = 0
    · subst h0
      simp only [ne_eq, not_true_eq_false, if_false]
      split
      · rename_i hn
        exact ⟨.ret i .dial GAIERROR 0 e n s.errno GAIERROR EAI_FAIL, rfl, rfl, by decide, fun h => absurd h (by decide), fun h => absurd h (by decide), fun _ _ h => absurd rfl h, fun _ => ⟨hn, rfl, rfl⟩⟩
      · exact ⟨.went i, rfl, trivial⟩
    · simp only [ne_eq, h0, not_false_eq_true, if_true]
      unfold errconv
      by_cases h1 : r = EAI_MEMORY
      · subst h1
        exact ⟨.ret i .dial NOMEM EAI_MEMORY e n s.errno NOMEM s.gai, rfl, rfl, by decide, fun _ => rfl, fun h => absurd h (by decide), fun h => absurd rfl h, fun h => absurd h (by decide)⟩
      · rw [if_neg h1]
        by_cases h2 : r = EAI_SYSTEM
        · subst h2
          exact ⟨.ret i .dial (fromSys s.errno) EAI_SYSTEM e n s.errno (errorGuard (fromSys s.errno) s.errno false).lasterr s.gai, rfl, errorGuard_fromSys _, fromSys_neg _, fun h => absurd h (by decide), fun _ => rfl, fun _ h => absurd rfl h, fun h => absurd h (by decide)⟩
        · rw [if_neg h2]
          exact ⟨.ret i .dial GAIERROR r e n s.errno GAIERROR r, rfl, rfl, by decide, fun h => absurd h h1, fun h => absurd h h2, fun _ _ _ => ⟨rfl, rfl⟩, fun h => absurd h h0⟩

theorem step_log {s s' : S} {a : Act} (h : step s a = some s') : ∃ l, s'.log = l ++ s.log ∧ ∀ x ∈ l, Ok x := by
  have hf : ∀ (u : S) (i : Nat) (v : Via) (r e : Int) (n : Bool), u.log = s.log → ∃ l, (finish u i v r e n).log = l ++ s.log ∧ ∀ x ∈ l, Ok x := by
    intro u i v r e n hu
    obtain ⟨x, h1, h2⟩ := finish_log u i v r e n
    exact ⟨[x], by rw [h1, hu]; rfl, by simpa using h2⟩
  have h1 : ∀ u : S, u.log = s.log → ∃ l, u.log = l ++ s.log ∧ ∀ x ∈ l, Ok x := fun u hu => ⟨[], hu, nofun⟩
  have hx : ∀ (u : S) (i : Nat), u.log = s.log → ∃ l, (exit u i).log = l ++ s.log ∧ ∀ x ∈ l, Ok x := by
    intro u i hu
    exact ⟨[.gone i], by unfold exit; rw [hu]; rfl, by simp [Ok]⟩
  cases a with
  | user i e => unfold step at h; dsimp only at h; split at h <;> cases h; exact h1 _ rfl
  | call i r e => unfold step at h; dsimp only at h; split at h <;> cases h; exact h1 _ rfl
  | cancel i => cases h; exact ⟨[.cancel i], rfl, by simp [Ok]⟩
  | setAsync i b => unfold step at h; dsimp only at h; split at h <;> cases h; exact h1 _ rfl
  | early i v x =>
    unfold step at h
    dsimp only at h
    split at h
    · cases x <;> dsimp only at h
      case canceled => split at h <;> cases h; exact hf _ _ _ _ _ _ rfl
      case timedout => cases h; exact hf _ _ _ _ _ _ rfl
      case addr => split at h <;> cases h; exact hf _ _ _ _ _ _ rfl
      case nomem => cases h; exact hf _ _ _ _ _ _ rfl
      case sys => split at h <;> cases h; exact hf _ _ _ _ _ _ rfl
    · cases h
  | begin i v => unfold step at h; dsimp only at h; split at h <;> cases h; exact h1 _ rfl
  | got i r e n =>
    unfold step at h
    dsimp only at h
    split at h
    · split at h <;> cases h; exact h1 _ rfl
    · cases h
  | fail i e =>
    unfold step at h
    dsimp only at h
    split at h
    · split at h
      · cases h
      · split at h <;> split at h <;> cases h
        · exact hx _ _ rfl
        · exact hf _ _ _ _ _ _ rfl
        · exact hx _ _ rfl
        · exact hf _ _ _ _ _ _ rfl
    · cases h
  | resumed i =>
    unfold step at h
    dsimp only at h
    split at h
    · split at h
      · cases h; exact hx _ _ rfl
      · cases h; exact hf _ _ _ _ _ _ rfl
    · cases h

theorem reach_ok {ok : Act → Prop} {s : S} (r : Reach ok s) : ∀ x ∈ s.log, Ok x := by
  induction r with
  | init => exact nofun
  | step a _ _ h ih =>
    obtain ⟨l, h1, h2⟩ := step_log h
    intro x hx
    rw [h1, List.mem_append] at hx
    exact hx.elim (h2 x) (ih x)

/-- **C83** `neco_getaddrinfo` returns what the lookup came to, and `neco_lasterr()` is then 0 for success, stands for `errno` if the code is
`EAI_SYSTEM`, and is `NECO_GAIERROR` for any other code, whatever the coroutines of the thread do meanwhile. -/
theorem C83_direct {ok : Act → Prop} {s : S} (h : Reach ok s) {i : Nat} {c r e errno lasterr gai : Int} {n : Bool}
    (hx : .ret i .direct c r e n errno lasterr gai ∈ s.log) :
    c = r ∧ lasterr = if c = 0 then OK else if c = EAI_SYSTEM then fromSys errno else GAIERROR := reach_ok h _ hx

/-- **C83** A `neco_dial` that fails in the lookup returns `NECO_GAIERROR` exactly if the lookup failed with a code of its own or gave no addresses, and then
`neco_gai_lasterr()` is that code, or `EAI_FAIL`; and `neco_lasterr()` is what it returned. -/
theorem C83_dial {ok : Act → Prop} {s : S} (h : Reach ok s) {i : Nat} {c r e errno lasterr gai : Int} {n : Bool}
    (hx : .ret i .dial c r e n errno lasterr gai ∈ s.log) :
    lasterr = c ∧ c < 0 ∧ (c = GAIERROR ↔ r ≠ EAI_MEMORY ∧ r ≠ EAI_SYSTEM) ∧ (c = GAIERROR → gai = if r = 0 then EAI_FAIL else r) := by
  obtain ⟨h1, h2, h3, h4, h5, h6⟩ := reach_ok h _ hx
  have hsys : ∀ x, fromSys x ≠ GAIERROR := by
    intro x
    unfold fromSys
    repeat' split
    all_goals decide
  refine ⟨h1, h2, ⟨fun hc => ⟨fun hr => ?_, fun hr => ?_⟩, fun ⟨g1, g2⟩ => ?_⟩, fun hc => ?_⟩
  · rw [h3 hr] at hc; exact absurd hc (by decide)
  · rw [h4 hr] at hc; exact hsys _ hc
  · by_cases h0 : r = 0
    · exact (h6 h0).2.1
    · exact (h5 g1 g2 h0).1
  · by_cases h0 : r = 0
    · rw [if_pos h0]; exact (h6 h0).2.2
    · rw [if_neg h0]
      by_cases g1 : r = EAI_MEMORY
      · rw [h3 g1] at hc; exact absurd hc (by decide)
      · by_cases g2 : r = EAI_SYSTEM
        · rw [h4 g2] at hc; exact absurd hc (hsys _)
        · exact (h5 g1 g2 h0).2

/-- the event of a call that returned, if `errno` is as the lookup left it -/
def ErrnoKept : Ev → Prop
  | .ret _ _ _ _ e _ errno _ _ => errno = e
  | _ => True

theorem finish_errno (s : S) (i : Nat) (v : Via) (r e : Int) (n : Bool) (he : s.errno = e) :
    ∃ x, (finish s i v r e n).log = x :: s.log ∧ ErrnoKept x := by
  unfold finish
  dsimp only
  split
  · exact ⟨.gone i, rfl, trivial⟩
  cases v with
  | direct => exact ⟨.ret i .direct r r e n s.errno _ s.gai, rfl, he⟩
  | dial =>
    dsimp only
    split
    · unfold errconv
      split
      · exact ⟨.ret i .dial _ r e n s.errno _ _, rfl, he⟩
      · split <;> exact ⟨.ret i .dial _ r e n s.errno _ _, rfl, he⟩
    · split
      · exact ⟨.ret i .dial _ r e n s.errno _ _, rfl, he⟩
      · exact ⟨.went i, rfl, trivial⟩

/-- **C83** `errno`: when the call returns it is what the lookup left, if it ended without waiting, or the wait failed, or nobody else runs after the
result came. -/
theorem C83_errno_partial {s s' : S} {as : List Act} {i : Nat} (h : run s as = some s')
    (ha : (∃ v x, as = [.early i v x]) ∨ (∃ e, as = [.fail i e]) ∨ (∃ r e n, as = [.got i r e n, .resumed i])) :
    ∃ x, s'.log = x :: s.log ∧ ErrnoKept x := by
  rcases ha with ⟨v, x, rfl⟩ | ⟨e, rfl⟩ | ⟨r, e, n, rfl⟩
  · simp only [run, Option.bind_eq_some_iff] at h
    obtain ⟨s1, h1, h2⟩ := h
    cases h2
    unfold step at h1
    dsimp only at h1
    split at h1
    · cases x <;> dsimp only at h1
      case canceled => split at h1 <;> cases h1; exact finish_errno _ _ _ _ _ _ rfl
      case timedout => cases h1; exact finish_errno _ _ _ _ _ _ rfl
      case addr => split at h1 <;> cases h1; exact finish_errno _ _ _ _ _ _ rfl
      case nomem => cases h1; exact finish_errno _ _ _ _ _ _ rfl
      case sys => split at h1 <;> cases h1; exact finish_errno _ _ _ _ _ _ rfl
    · cases h1
  · simp only [run, Option.bind_eq_some_iff] at h
    obtain ⟨s1, h1, h2⟩ := h
    cases h2
    unfold step at h1
    dsimp only at h1
    split at h1
    · rename_i v hv
      split at h1
      · cases h1
      · split at h1 <;> split at h1 <;> cases h1
        · exact ⟨.gone i, rfl, trivial⟩
        · exact finish_errno _ _ _ _ _ _ rfl
        · exact ⟨.gone i, rfl, trivial⟩
        · exact finish_errno _ _ _ _ _ _ rfl
    · cases h1
  · simp only [run, Option.bind_eq_some_iff] at h
    obtain ⟨s1, h1, s2, h2, h3⟩ := h
    cases h3
    unfold step at h1
    dsimp only at h1
    split at h1
    · rename_i v hv
      split at h1
      · cases h1
      · cases h1
        unfold step at h2
        simp only [setPc, if_true] at h2
        split at h2
        · cases h2; exact ⟨.gone i, rfl, trivial⟩
        · cases h2; exact finish_errno _ _ _ _ _ _ rfl
    · cases h1

theorem runs_reach {ok : Act → Prop} : ∀ {as : List Act} {s s' : S}, Reach ok s → (∀ a ∈ as, ok a) → run s as = some s' → Reach ok s'
  | [], _, _, r, _, h => by cases h; exact r
  | a :: as, s, s', r, ha, h => by
    simp only [run, Option.bind_eq_some_iff] at h
    obtain ⟨s1, h1, h2⟩ := h
    exact runs_reach (r.step a (ha a (by simp)) h1) (fun b hb => ha b (by simp [hb])) h2

/-- **False of the code** after a wait: `errno` is set, and then `coyield` lets the other coroutines run.  Here the lookup ran out of memory in the system, and
`neco_getaddrinfo` returns `EAI_SYSTEM` with the `errno` of another coroutine (11 is `EAGAIN`). -/
theorem C83_errno_not_general : ∃ s, Reach any s ∧ .ret 1 .direct EAI_SYSTEM EAI_SYSTEM sysENOMEM false 11 ERROR 0 ∈ s.log :=
  ⟨_, runs_reach (as := [.begin 1 .direct, .got 1 EAI_SYSTEM sysENOMEM false, .call 2 (-1) 11, .resumed 1]) .init (fun _ _ => trivial) rfl, by decide⟩

/-- **False of the code**, worse: the `errno` that another coroutine has left is `ECANCELED`, and a coroutine that nobody has canceled is terminated.
Here coroutine 2 has the cancel type inline and is canceled in a lookup of its own. -/
theorem C83_gone_not_general : ∃ s, Reach any s ∧ .gone 1 ∈ s.log ∧ .cancel 1 ∉ s.log :=
  ⟨_, runs_reach (as := [.setAsync 2 false, .begin 1 .direct, .begin 2 .direct, .cancel 2, .got 1 EAI_SYSTEM sysENOMEM false, .fail 2 sysECANCELED, .resumed 1])
    .init (fun _ _ => trivial) rfl, by decide, by decide⟩

/-- the lookups of coroutine `i` that wait never come back with `EAI_SYSTEM` -/
def NoSystem (i : Nat) : Act → Prop
  | .got k r _ _ => k = i → r ≠ EAI_SYSTEM
  | _ => True

theorem guard_exits {c e : Int} {b : Bool} (h : (asyncErrorGuard c e false b).exited = true) : (c = -1 ∧ e = sysECANCELED) ∨ c = CANCELED := by
  by_cases h0 : c = CANCELED
  · exact .inr h0
  · refine .inl ?_
    unfold asyncErrorGuard errorGuard at h
    dsimp only at h
    by_cases hc : c < 0
    · by_cases h2 : c = -1
      · refine ⟨h2, ?_⟩
        by_cases h3 : fromSys e = CANCELED
        · unfold fromSys at h3
          split at h3
          · exact absurd h3 (by decide)
          split at h3
          · exact absurd h3 (by decide)
          split at h3
          · exact absurd h3 (by decide)
          split at h3
          · assumption
          split at h3
          · exact absurd h3 (by decide)
          · exact absurd h3 (by decide)
        · simp [hc, h2, h3] at h
      · simp [hc, h2, h0] at h
    · have : ¬ (0 : Int) = CANCELED := by decide
      simp [hc, this] at h

theorem necoErr_exits {r e : Int} {b : Bool} (h : (asyncErrorGuard (necoErr r) e false b).exited = true) : r = EAI_SYSTEM ∧ e = sysECANCELED := by
  unfold necoErr at h
  by_cases h0 : r = 0
  · rw [if_pos h0] at h; rcases guard_exits h with ⟨g, _⟩ | g <;> exact absurd g (by decide)
  · rw [if_neg h0] at h
    by_cases h1 : r = EAI_SYSTEM
    · rw [if_pos h1] at h
      rcases guard_exits h with ⟨_, g⟩ | g
      · exact ⟨h1, g⟩
      · exact absurd g (by decide)
    · rw [if_neg h1] at h; rcases guard_exits h with ⟨g, _⟩ | g <;> exact absurd g (by decide)

theorem finish_gone {s : S} {i k : Nat} {v : Via} {r e : Int} {n : Bool} (h : .gone k ∈ (finish s i v r e n).log) :
    .gone k ∈ s.log ∨ (k = i ∧ r = EAI_SYSTEM ∧ s.errno = sysECANCELED) := by
  unfold finish at h
  dsimp only at h
  split at h
  · rename_i hg
    simp only [exit, List.mem_cons, Ev.gone.injEq] at h
    exact h.elim (fun h => .inr ⟨h, necoErr_exits hg⟩) .inl
  · cases v with
    | direct => exact .inl (by simpa [give, setPc] using h)
    | dial =>
      dsimp only at h
      split at h
      · unfold errconv at h
        split at h
        · exact .inl (by simpa [give, setPc] using h)
        · split at h <;> exact .inl (by simpa [give, setPc] using h)
      · split at h <;> exact .inl (by simpa [give, setPc] using h)

theorem finish_more (s : S) (i : Nat) (v : Via) (r e : Int) (n : Bool) : ∀ k, .cancel k ∈ s.log → .cancel k ∈ (finish s i v r e n).log := by
  intro k hk
  obtain ⟨x, h1, _⟩ := finish_log s i v r e n
  rw [h1]; exact List.mem_cons_of_mem _ hk

theorem finish_fields (s : S) (i : Nat) (v : Via) (r e : Int) (n : Bool) :
    (finish s i v r e n).canceled = s.canceled ∧ ∀ k, (finish s i v r e n).pc k = s.pc k ∨ (finish s i v r e n).pc k = .idle ∨ (finish s i v r e n).pc k = .gone := by
  unfold finish
  dsimp only
  split
  · refine ⟨rfl, fun k => ?_⟩
    unfold exit setPc; dsimp only; split <;> simp
  · cases v with
    | direct => refine ⟨rfl, fun k => ?_⟩; (first | unfold give setPc | unfold setPc); dsimp only; split <;> simp
    | dial =>
      dsimp only
      split
      · unfold errconv
        split
        · refine ⟨rfl, fun k => ?_⟩; (first | unfold give setPc | unfold setPc); dsimp only; split <;> simp
        · split <;> (refine ⟨rfl, fun k => ?_⟩; (first | unfold give setPc | unfold setPc); dsimp only; split <;> simp)
      · split <;> (refine ⟨rfl, fun k => ?_⟩; (first | unfold give setPc | unfold setPc); dsimp only; split <;> simp)

structure Inv (i : Nat) (s : S) : Prop where
  pend : s.canceled i = true → .cancel i ∈ s.log
  yld : ∀ v r e n, s.pc i = .yield v r e n → r ≠ EAI_SYSTEM
  gone : .gone i ∈ s.log → .cancel i ∈ s.log

theorem inv_eq {i : Nat} {s u : S} (I : Inv i s) (hl : u.log = s.log) (hp : u.pc = s.pc) (hc : u.canceled i = true → s.canceled i = true) : Inv i u :=
  ⟨fun h => hl ▸ I.pend (hc h), by rw [hp]; exact I.yld, by rw [hl]; exact I.gone⟩

theorem inv_finish {i k : Nat} {s : S} (I : Inv i s) (v : Via) (r e : Int) (n : Bool)
    (h : k = i → r = EAI_SYSTEM → s.errno = sysECANCELED → .cancel i ∈ s.log) : Inv i (finish s k v r e n) := by
  obtain ⟨f1, f2⟩ := finish_fields s k v r e n
  have f3 := finish_more s k v r e n i
  refine ⟨fun hc => f3 (I.pend (by rwa [f1] at hc)), ?_, ?_⟩
  · intro v' r' e' n' hp
    rcases f2 i with g | g | g
    · exact I.yld v' r' e' n' (by rw [← g]; exact hp)
    · rw [g] at hp; cases hp
    · rw [g] at hp; cases hp
  · intro hg
    rcases finish_gone hg with g | ⟨g1, g2, g3⟩
    · exact f3 (I.gone g)
    · exact f3 (h g1.symm g2 g3)

theorem inv_finish' {i k : Nat} {s : S} {v : Via} {r e : Int} {n : Bool}
    (h : k = i → r = EAI_SYSTEM → s.errno = sysECANCELED → .cancel i ∈ s.log) (I : Inv i s) : Inv i (finish s k v r e n) := inv_finish I v r e n h

theorem inv_reach {i : Nat} {s : S} (r : Reach (NoSystem i) s) : Inv i s := by
  induction r with
  | init => exact ⟨nofun, nofun, nofun⟩
  | @step s s' a _ hok h I =>
    cases a with
    | user k e => unfold step at h; dsimp only at h; split at h <;> cases h; exact ⟨I.pend, I.yld, I.gone⟩
    | call k r e => unfold step at h; dsimp only at h; split at h <;> cases h; exact ⟨I.pend, I.yld, I.gone⟩
    | setAsync k b => unfold step at h; dsimp only at h; split at h <;> cases h; exact ⟨I.pend, I.yld, I.gone⟩
    | cancel k =>
      cases h
      refine ⟨fun hc => ?_, I.yld, fun hg => ?_⟩
      · by_cases hk : i = k
        · subst hk; exact List.mem_cons_self
        · simp only [setCanceled, hk, if_false] at hc; exact List.mem_cons_of_mem _ (I.pend hc)
      · simp only [List.mem_cons, reduceCtorEq, false_or] at hg; exact List.mem_cons_of_mem _ (I.gone hg)
    | early k v x =>
      unfold step at h
      dsimp only at h
      split at h
      · cases x <;> dsimp only at h
        case canceled =>
          split at h <;> cases h
          rename_i hc
          refine inv_finish' (fun hk _ _ => I.pend (hk ▸ hc)) (inv_eq I rfl rfl (fun hc => ?_))
          simp only [setCanceled] at hc
          split at hc
          · cases hc
          · exact hc
        case timedout => cases h; exact inv_finish' (fun _ _ h => nomatch (show sysETIMEDOUT = sysECANCELED from h)) (inv_eq I rfl rfl id)
        case addr r e n => split at h <;> cases h; rename_i he; exact inv_finish' (fun _ _ h => absurd h he) (inv_eq I rfl rfl id)
        case nomem => cases h; exact inv_finish' (fun _ _ h => nomatch (show sysENOMEM = sysECANCELED from h)) (inv_eq I rfl rfl id)
        case sys e => split at h <;> cases h; rename_i he; exact inv_finish' (fun _ _ h => absurd h he) (inv_eq I rfl rfl id)
      · cases h
    | begin k v =>
      unfold step at h; dsimp only at h; split at h <;> cases h
      refine ⟨I.pend, fun v' r' e' n' hp => ?_, I.gone⟩
      simp only [setPc] at hp
      split at hp
      · cases hp
      · exact I.yld _ _ _ _ hp
    | got k r e n =>
      unfold step at h; dsimp only at h
      split at h
      · split at h <;> cases h
        refine ⟨I.pend, fun v' r' e' n' hp => ?_, I.gone⟩
        simp only [setPc] at hp
        split at hp
        · rename_i hk; cases hp; exact hok hk.symm
        · exact I.yld _ _ _ _ hp
      · cases h
    | fail k e =>
      unfold step at h; dsimp only at h
      split at h
      · split at h
        · cases h
        rename_i hne
        have hx : ∀ u : S, u.log = s.log → (k = i → .cancel i ∈ s.log) → u.canceled = s.canceled ∨ u.canceled = (setCanceled s k false).canceled → u.pc = s.pc → Inv i (exit u k) := by
          intro u hl hc hca hp
          refine ⟨fun h => ?_, fun v' r' e' n' h => ?_, fun h => ?_⟩
          · refine List.mem_cons_of_mem _ (hl ▸ I.pend ?_)
            have h : u.canceled i = true := h
            rcases hca with g | g
            · rwa [g] at h
            · rw [g] at h; simp only [setCanceled] at h; split at h
              · cases h
              · exact h
          · simp only [exit, setPc] at h
            split at h
            · cases h
            · rw [hp] at h; exact I.yld _ _ _ _ h
          · simp only [exit, List.mem_cons, Ev.gone.injEq, reduceCtorEq, false_or, hl] at h ⊢
            exact h.elim (fun h => hc h.symm) I.gone
        have hcn : e = sysECANCELED → k = i → .cancel i ∈ s.log := by
          intro he hk
          refine I.pend ?_
          subst hk
          cases hc : s.canceled k
          · exact absurd ⟨he, hc⟩ hne
          · rfl
        split at h <;> split at h <;> cases h
        · rename_i he _
          exact hx _ rfl (hcn he) (.inr rfl) rfl
        · rename_i he _
          refine inv_finish' (fun hk _ _ => hcn he hk) (inv_eq I rfl rfl (fun h => ?_))
          simp only [setCanceled] at h; split at h
          · cases h
          · exact h
        · rename_i he hg
          rcases guard_exits hg with ⟨_, g⟩ | g
          · exact absurd g he
          · exact absurd g (by decide)
        · rename_i he _
          exact inv_finish' (fun _ _ h => absurd h he) (inv_eq I rfl rfl id)
      · cases h
    | resumed k =>
      unfold step at h; dsimp only at h
      split at h
      · rename_i v r e n hp
        split at h
        · rename_i hc
          cases h
          refine ⟨fun h => List.mem_cons_of_mem _ (I.pend h), fun v' r' e' n' h => ?_, fun h => ?_⟩
          · simp only [exit, setPc] at h
            split at h
            · cases h
            · exact I.yld _ _ _ _ h
          · simp only [exit, List.mem_cons, Ev.gone.injEq, reduceCtorEq, false_or] at h ⊢
            refine h.elim (fun h => I.pend ?_) I.gone
            subst h; simp only [Bool.and_eq_true] at hc; exact hc.1
        · cases h
          exact inv_finish I _ _ _ _ (fun hk hr _ => absurd hr (I.yld v r e n (hk ▸ hp)))
      · cases h

/-- **C83** a coroutine is terminated in a lookup only if it was canceled: if its lookups by the helper thread do not come back with `EAI_SYSTEM`. -/
theorem C83_gone_partial {i : Nat} {s : S} (r : Reach (NoSystem i) s) (h : .gone i ∈ s.log) : .cancel i ∈ s.log := (inv_reach r).gone h

/-- it can be terminated -/
example : ∃ s, Reach (NoSystem 1) s ∧ .gone 1 ∈ s.log :=
  ⟨_, runs_reach (as := [.begin 1 .dial, .cancel 1, .fail 1 sysECANCELED]) .init (by simp [NoSystem]) rfl, by decide⟩

/-- **False of the code**: `neco_getaddrinfo` does not set what `neco_gai_lasterr` returns: it is 0 after a lookup that failed. -/
theorem C83_gai_not_general : ∃ s, Reach any s ∧ .ret 1 .direct EAI_NONAME EAI_NONAME 0 false 0 GAIERROR 0 ∈ s.log :=
  ⟨_, runs_reach (as := [.begin 1 .direct, .got 1 EAI_NONAME 0 false, .resumed 1]) .init (fun _ _ => trivial) rfl, by decide⟩

/-- **False of the code**: a lookup of `neco_dial` that worked makes `neco_gai_lasterr` return `EAI_FAIL`, and no lookup has failed. -/
theorem C83_gai_ok_not_general : ∃ s, Reach any s ∧ s.log = [.went 1] ∧ s.gai = EAI_FAIL :=
  ⟨_, runs_reach (as := [.begin 1 .dial, .got 1 0 0 false, .resumed 1]) .init (fun _ _ => trivial) rfl, rfl, rfl⟩

end Neco.Look
