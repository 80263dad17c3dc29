import Verif.Proof.Gai

/-! # C54: neco_getaddrinfo and its helper thread -/

namespace Neco.Gai

/-- **C54** in every interleaving of the coroutines and the helper threads, whatever is canceled or times out: no access to memory that was freed, nothing freed or closed twice, and no `must` fails -/
theorem C54_safe {s : S} (r : Reach s) : ∀ c ∈ s.calls, c.fault = false := fun c hc => ((reach_inv r).1 c hc).flt

/-- **C54** when a coroutine is through with the call and so is its thread, all that was allocated and opened for the call was freed and closed, except for the addresses given to the user;
and an end of the pipe if it is the descriptor 0 -/
theorem C54_freed_partial {s : S} (r : Reach s) {c : Call} (hc : c ∈ s.calls) (_ho : Over c) (ht : Through c) :
    ∀ o ∈ c.live, (o = .res ∧ c.given = true) ∨ (o = .fd0 ∧ c.fds0 = 0) ∨ (o = .fd1 ∧ c.fds1 = 0) := by
  have hi := (reach_inv r).1 c hc
  intro o hm
  have hleft : o ∈ left c → (o = .fd0 ∧ c.fds0 = 0) ∨ (o = .fd1 ∧ c.fds1 = 0) := by
    intro h
    unfold left at h
    rw [List.mem_append] at h
    rcases h with h | h <;> split at h <;> simp_all
  rcases ht with ht | ht
  · rcases hi.nil ht with h | h
    · rw [h] at hm; exact .inr (hleft hm)
    · rw [h] at hm; simp at hm
  · rw [hi.gone (.inr ht), List.mem_append] at hm
    rcases hm with h | h
    · left
      unfold gift at h
      split at h
      · rename_i hg; simp at h; exact ⟨h, hg⟩
      · simp at h
    · exact .inr (hleft h)

/-- **C54** addresses that were given to the user are never freed by the call or its thread, and the thread has no pointer to them -/
theorem C54_given {s : S} (r : Reach s) {c : Call} (hc : c ∈ s.calls) (hg : c.given = true) : .res ∈ c.live ∧ c.hasRes = false := by
  have hi := (reach_inv r).1 c hc
  have h1 : c.hasRes = false := by
    cases h : c.hasRes with
    | false => rfl
    | true => have := hi.one h; rw [hg] at this; cases this
  refine ⟨?_, h1⟩
  by_cases h2 : c.th = .count ∨ c.th = .done
  · rw [hi.gone h2]; simp [gift, hg]
  · by_cases h3 : c.th = .none
    · have := (hi.none h3).2; rw [hg] at this; cases this
    · rw [hi.own ⟨h3, fun e => h2 (.inl e), fun e => h2 (.inr e)⟩]; simp [whole, hg]

/-- **C54** a call that returns gives addresses to the user exactly if it returns 0; what it returns is the result of the lookup, unless that is not known or the call was canceled, timed out or failed -/
theorem C54_result {s : S} (r : Reach s) {c : Call} (hc : c ∈ s.calls) {x : Int} (hx : c.co = .done x) : (x = 0 ↔ c.given = true) ∧ (c.th ≠ .none → x = EAI_SYSTEM ∨ x = c.ret) := by
  have hi := (reach_inv r).1 c hc
  have hr := reach_res r c hc
  by_cases hn : c.th = .none
  · refine ⟨?_, fun h => absurd hn h⟩
    have h1 := hr.none hn x hx
    have h2 := (hi.none hn).2
    simp [h1, h2]
  · rcases hr.pop x hn (.inr hx) with ⟨k1, k2⟩ | ⟨k1, k2, k3⟩
    · exact ⟨by rw [k1, k2]; decide, fun _ => .inl k1⟩
    · have := hr.some hn k3
      refine ⟨?_, fun _ => .inr k1⟩
      rw [k1, this, k2]; simp

/-- **C54** a thread never hangs: once the coroutine is through and the lookup is done, at most four steps of the thread end it, whatever else happens in between (nobody else changes what it waits for) -/
theorem C54_ends {s : S} (r : Reach s) {c : Call} (hc : c ∈ s.calls) (ho : Over c) (hn : c.th ≠ .none) (hl : c.th ≠ .lookup) :
    ∃ k, k ≤ 4 ∧ ∃ c', (Nat.repeat (fun o => o.bind (act · .thread)) k (some c)) = some c' ∧ c'.th = .done := by
  have hi := (reach_inv r).1 c hc
  have hret := (hi.ret hn).mpr ho
  have h1 : ∀ c : Call, c.th = .count → ∃ c', act c .thread = some c' ∧ c'.th = .done := by
    intro c h; simp only [act, h]; exact ⟨_, rfl, rfl⟩
  have h2 : ∀ c : Call, c.th = .free → ∃ c', act c .thread = some c' ∧ c'.th = .count := by
    intro c h; simp only [act, h]; exact ⟨_, rfl, rfl⟩
  have h3 : ∀ c : Call, c.th = .spin → c.returned = true → ∃ c', act c .thread = some c' ∧ c'.th = .free := by
    intro c h hr
    simp only [act, h, use]
    split <;> simp [hr]
  have h4 : ∀ c : Call, c.th = .write → c.returned = true → ∃ c', act c .thread = some c' ∧ c'.th = .spin ∧ c'.returned = true := by
    intro c h hr
    simp only [act, h, use]
    (repeat' split) <;> exact ⟨_, rfl, rfl, hr⟩
  cases ht : c.th with
  | none => exact absurd ht hn
  | lookup => exact absurd ht hl
  | done => exact ⟨0, by decide, c, rfl, ht⟩
  | count =>
    obtain ⟨c1, a1, b1⟩ := h1 c ht
    exact ⟨1, by decide, c1, by simp [Nat.repeat, a1], b1⟩
  | free =>
    obtain ⟨c2, a2, b2⟩ := h2 c ht
    obtain ⟨c1, a1, b1⟩ := h1 c2 b2
    exact ⟨2, by decide, c1, by simp [Nat.repeat, a2, a1], b1⟩
  | spin =>
    obtain ⟨c3, a3, b3⟩ := h3 c ht hret
    obtain ⟨c2, a2, b2⟩ := h2 c3 b3
    obtain ⟨c1, a1, b1⟩ := h1 c2 b2
    exact ⟨3, by decide, c1, by simp [Nat.repeat, a3, a2, a1], b1⟩
  | write =>
    obtain ⟨c4, a4, b4, r4⟩ := h4 c ht hret
    obtain ⟨c3, a3, b3⟩ := h3 c4 b4 r4
    obtain ⟨c2, a2, b2⟩ := h2 c3 b3
    obtain ⟨c1, a1, b1⟩ := h1 c2 b2
    exact ⟨4, by decide, c1, by simp [Nat.repeat, a4, a3, a2, a1], b1⟩

/-- **C54** the counter of threads is exact; it is 0 again when all of them are through -/
theorem C54_counter {s : S} (r : Reach s) : s.counter = (s.calls.filter Running).length ∧ ((∀ c ∈ s.calls, Through c) → s.counter = 0) := by
  have h := (reach_inv r).2
  refine ⟨h, fun ht => ?_⟩
  have : s.calls.filter Running = [] := by
    rw [List.filter_eq_nil_iff]
    intro c hc
    rcases ht c hc with k | k <;> simp [Running, k]
  rw [h, this]; rfl

/-! ## Cases -/

/-- run a list of steps -/
def runs : List Step → S → Option S
  | [], s => some s
  | a :: as, s => match step s a with
    | none => none
    | some s' => runs as s'
theorem runs_reach : ∀ {as : List Step} {s s' : S}, Reach s → runs as s = some s' → Reach s'
  | [], s, s', r, h => by simp [runs] at h; subst h; exact r
  | a :: as, s, s', r, h => by
    unfold runs at h
    split at h
    · cases h
    · rename_i s1 hs; exact runs_reach (.step r a hs) h

/-- two calls at a time: one is canceled during the lookup, the other one gets addresses -/
def exTwo : List Step :=
  [.call true true false {}, .call true false true { pipe := some (5, 6) }, .on 0 .readErr, .on 1 (.looked 0 0), .on 0 .pop, .on 1 .thread, .on 0 (.looked 0 0), .on 1 .thread, .on 1 .readOk, .on 0 .thread,
   .on 1 .thread, .on 1 .resumed, .on 0 .thread, .on 1 .pop, .on 0 .thread, .on 0 .thread, .on 1 .thread, .on 1 .thread, .on 1 .thread]
example : ∃ s, Reach s ∧ s.calls.map (fun c => (c.co, c.th, c.live, c.given)) = [(.done EAI_SYSTEM, .done, [], false), (.done 0, .done, [.res], true)] ∧ s.counter = 0 := by
  refine ⟨_, runs_reach (as := exTwo) .init rfl, ?_⟩
  decide +kernel

/-- **False of the code**: if an end of the pipe is the descriptor 0 (standard input was closed) it is never closed -/
theorem C54_freed_not_general : ¬ ∀ (s : S) (c : Call), Reach s → c ∈ s.calls → Over c → Through c → c.given = false → c.live = [] := by
  intro h
  have := h _ _ (runs_reach (as := [.call true true false { pipe := some (0, 3) }, .on 0 .readErr, .on 0 .pop, .on 0 (.looked 1 0), .on 0 .thread, .on 0 .thread, .on 0 .thread, .on 0 .thread]) .init rfl) (List.mem_singleton.mpr rfl) (.inl ⟨_, rfl⟩) (.inr rfl) rfl
  exact absurd this (by decide +kernel)

/-- **False of the code**: a coroutine that is canceled after the result came (in `coyield`) is terminated with the addresses allocated, and nobody frees them -/
theorem C54_exit_not_general : ¬ ∀ (s : S) (c : Call), Reach s → c ∈ s.calls → c.co = .exited → Through c → c.live = [] := by
  intro h
  have := h _ _ (runs_reach (as := [.call true true false {}, .on 0 (.looked 0 0), .on 0 .thread, .on 0 .readOk, .on 0 .exit, .on 0 .thread, .on 0 .thread, .on 0 .thread]) .init rfl) (List.mem_singleton.mpr rfl) rfl (.inr rfl)
  exact absurd this (by decide +kernel)

end Neco.Gai
