import Verif.Proof.RtSettle
import Verif.Proof.RtSwitch
import Verif.Props.Sco
/-!
# How many turns a coroutine has to wait
-/
namespace Neco.Sco

theorem WF.count {s : Sco} (h : WF s) : s.cur.toList.length + s.runners.length + s.yielders.length + s.paused.length + s.done.length = s.nextId := by
  have := h.perm.length_eq
  simp only [everybody, List.length_append, List.length_range'] at this
  omega

/-- `x` is run before more than `k` coroutines are, if the main loop wakes it in its next pass -/
def Bound (s : Sco) (x k : Nat) : Prop :=
  (∃ k', Ahead s x k' ∧ k' ≤ k) ∨ (x ∈ s.paused ∧ s.runners.length + (s.nextId - s.done.length) ≤ k)

/-- between `s` and `s'` the coroutine `x` was run or came nearer to it -/
def Adv (x k : Nat) (s s' : Sco) : Prop :=
  s.nextId ≤ s'.nextId ∧ ∃ new, s'.hist = new ++ s.hist ∧
    ((s'.cur = some x ∧ x ∈ new) ∨ ∃ k', Bound s' x k' ∧ k' + new.length ≤ k + 2 * (s'.nextId - s.nextId))

theorem Bound.mono {s : Sco} {x k k' : Nat} (h : Bound s x k) (hk : k ≤ k') : Bound s x k' := by
  rcases h with ⟨q, h1, h2⟩ | ⟨h1, h2⟩
  · exact .inl ⟨q, h1, by omega⟩
  · exact .inr ⟨h1, by omega⟩

theorem Adv.refl {s : Sco} {x k : Nat} (h : Bound s x k) : Adv x k s s :=
  ⟨Nat.le_refl _, [], rfl, .inr ⟨k, h, by simp⟩⟩

theorem Adv.trans {s t u : Sco} {x k : Nat} (h : Adv x k s t) (hc : t.cur ≠ some x) (g : ∀ k', Bound t x k' → Adv x k' t u) : Adv x k s u := by
  obtain ⟨h1, new, h2, h3⟩ := h
  rcases h3 with h3 | ⟨k', h3, h4⟩
  · exact absurd h3.1 hc
  · obtain ⟨g1, n2, g2, g3⟩ := g k' h3
    refine ⟨by omega, n2 ++ new, by rw [g2, h2]; simp, ?_⟩
    rcases g3 with g3 | ⟨k2, g3, g4⟩
    · exact .inl ⟨g3.1, by simp [g3.2]⟩
    · refine .inr ⟨k2, g3, ?_⟩
      simp; omega

theorem qstep_adv {s t : Sco} {b : Bool} {add} (hw : WF' t) (hh : t.hist = s.hist) (hr : t.runners = s.runners) (hy : t.yielders = s.yielders ++ add)
    (hn : t.nextId = s.nextId) {x k : Nat} (h : ∃ k', Ahead s x k' ∧ k' ≤ k) : Adv x k s (t.switch b) := by
  obtain ⟨k', h1, h2⟩ := h
  obtain ⟨new, q⟩ := QStep.of_switch (s := s) (add := add) hw b hh hr hy
  obtain ⟨_, _, e3, new2, e4, _, e6, _⟩ := switch_spec hw b
  have e : new2 = new := List.append_cancel_right (bs := t.hist) (by rw [← e4, q.hist, hh])
  subst e
  refine ⟨by rw [e3, hn]; exact Nat.le_refl _, new2, q.hist, ?_⟩
  rcases qstep_ahead q h1 with h3 | ⟨k2, h3, h4⟩
  · left
    refine ⟨?_, h3⟩
    rw [e6]
    have := q.le
    match new2, h3, this with
    | [y], h3, _ => simp at h3; simp [h3]
  · exact .inr ⟨k2, .inl ⟨k2, h3, Nat.le_refl _⟩, by omega⟩

theorem switch_adv {s : Sco} (h : WF' s) {x : Nat} (hx : x ∈ s.paused) :
    (s.switch false).paused = s.paused ∧ (s.switch false).done = s.done ∧ (s.switch false).nextId = s.nextId ∧
    ∃ new, (s.switch false).hist = new ++ s.hist ∧ (s.switch false).runners.length + new.length = s.runners.length := by
  obtain ⟨nr, ny, np, perm, bad⟩ := h
  have hp : s.npaused > 0 := by rw [np]; exact List.length_pos_of_mem hx
  unfold switch
  split
  · rw [if_pos (by simp [hp])]
    exact ⟨rfl, rfl, rfl, [], rfl, rfl⟩
  · rename_i h0
    unfold dispatch
    split
    · rename_i h2; rw [h2] at nr; simp at nr; omega
    · rename_i y r h2
      exact ⟨rfl, rfl, rfl, [y], rfl, by simp [h2]⟩

@[simp] theorem switch_nextId (t : Sco) (b : Bool) : (t.switch b).nextId = t.nextId := by
  unfold switch
  split
  · split
    · rfl
    · unfold dispatch; split <;> rfl
  · unfold dispatch; split <;> rfl

/-- the state `sco_switch` sees after the running coroutine was put somewhere -/
theorem sw_bound {s t : Sco} (hw : WF' t) {x k : Nat} (hx : x ∈ t.paused) (hr : t.runners = s.runners) (hh : t.hist = s.hist) (hn : t.nextId = s.nextId)
    (hd : s.done.length ≤ t.done.length) (h : s.runners.length + (s.nextId - s.done.length) ≤ k) : Adv x k s (t.switch false) := by
  obtain ⟨h1, h2, h3, new, h4, h5⟩ := switch_adv hw hx
  refine ⟨by rw [h3, hn]; exact Nat.le_refl _, new, by rw [h4, hh], .inr ⟨k - new.length, .inr ⟨by rw [h1]; exact hx, ?_⟩, ?_⟩⟩
  · rw [h3, hn, h2]; rw [hr] at h5; omega
  · rw [hr] at h5; omega

theorem step_hist {s : Sco} (h : WF s) (o : Op) (e : o.enabled s) : ∃ new, (s.step o).hist = new ++ s.hist := by
  by_cases ho : o = .start
  · subst ho
    obtain ⟨c, hc⟩ := Option.isSome_iff_exists.1 (show s.cur.isSome from e)
    exact ⟨[], (start_q hc).1⟩
  · obtain ⟨new, add, q⟩ := step_q h o e ho
    exact ⟨new, q.hist⟩

theorem step_next {s : Sco} (o : Op) (hs : o ≠ .start) (hm : o ≠ .mainStart) : (s.step o).nextId = s.nextId := by
  cases o with
  | start => exact absurd rfl hs
  | mainStart => exact absurd rfl hm
  | yield => simp only [step, yield]; split <;> simp
  | pause => simp only [step, pause]; split <;> simp
  | resume id => simp only [step, resume, yield]; (repeat' split) <;> simp [wake]
  | mainResume id => simp only [step, resume, yield]; (repeat' split) <;> simp [wake]
  | finish => simp [step, finish]
  | exit => simp [step, exit]
  | mainNext => simp [step, resume0]

theorem step_next_le {s : Sco} (o : Op) : s.nextId ≤ (s.step o).nextId := by
  by_cases h : o = .start
  · subst h; simp only [step, start]; split <;> simp
  · by_cases h2 : o = .mainStart
    · subst h2; simp only [step, start]; split <;> simp
    · rw [step_next o h h2]; exact Nat.le_refl _

theorem finish_wf' {s : Sco} (h : WF s) : WF' { s with done := s.cur.toList ++ s.done, cur := none } := by
  obtain ⟨nr, ny, np, perm, bad, _⟩ := h
  refine ⟨nr, ny, np, ?_, bad⟩
  refine List.Perm.trans ?_ perm
  unfold everybody
  simp only
  rw [List.perm_iff_count]; intro a
  simp only [List.count_append]; omega

theorem exit_wf' {s : Sco} (h : WF s) : WF' { s with done := s.cur.toList ++ s.done, cur := none, exitReq := true } := by
  obtain ⟨nr, ny, np, perm, bad⟩ := finish_wf' h
  exact ⟨nr, ny, np, perm, bad⟩

theorem yield_wf' {s : Sco} (h : WF s) {c : Nat} (hc : s.cur = some c) : WF' { s with yielders := s.yielders ++ [c], nyielders := s.nyielders + 1 } := by
  obtain ⟨nr, ny, np, perm, bad, _⟩ := h
  refine ⟨nr, by simp [ny], np, ?_, bad⟩
  refine List.Perm.trans ?_ perm
  unfold everybody
  rw [hc]
  simp only [Option.toList]
  rw [List.perm_iff_count]; intro a
  simp only [List.count_append, List.count_cons, List.count_nil]; omega

theorem pause_wf' {s : Sco} (h : WF s) {c : Nat} (hc : s.cur = some c) : WF' { s with paused := c :: s.paused, npaused := s.npaused + 1 } := by
  obtain ⟨nr, ny, np, perm, bad, _⟩ := h
  refine ⟨nr, ny, by simp [np], ?_, bad⟩
  refine List.Perm.trans ?_ perm
  unfold everybody
  rw [hc]
  simp only [Option.toList]
  rw [List.perm_iff_count]; intro a
  simp only [List.count_append, List.count_cons, List.count_nil]; omega

theorem yield_adv {s : Sco} (h : WF s) {x k : Nat} (hb : Bound s x k) : Adv x k s s.yield := by
  cases hc : s.cur with
  | none => have : s.yield = s := by unfold yield; rw [hc]
            rw [this]; exact .refl hb
  | some c =>
    rcases hb with hb | ⟨hx, hk⟩
    · have : s.yield = ({ s with yielders := s.yielders ++ [c], nyielders := s.nyielders + 1 } : Sco).switch false := by
        unfold yield; rw [hc]
      rw [this]
      exact qstep_adv (s := s) (add := [c]) (yield_wf' h hc) rfl rfl rfl rfl hb
    · have : s.yield = ({ s with yielders := s.yielders ++ [c], nyielders := s.nyielders + 1 } : Sco).switch false := by
        unfold yield; rw [hc]
      rw [this]
      exact sw_bound (yield_wf' h hc) hx rfl rfl rfl (Nat.le_refl _) hk

theorem resume_adv {s : Sco} (h : WF s) (id : Nat) {x k : Nat} (hb : Bound s x k) : Adv x k s (s.resume id) := by
  unfold resume
  split
  · rename_i hid
    have hw := wake_wf h hid
    have hb' : Bound (s.wake id) x k := by
      rcases hb with ⟨k', h1, h2⟩ | ⟨hx, hk⟩
      · refine .inl ⟨k', ?_, h2⟩
        cases h1 with
        | @runner pre post h1 => exact Ahead.runner (s := s.wake id) (pre := pre) (post := post) h1
        | @yielder pre post h1 => exact Ahead.yielder (s := s.wake id) (pre := pre) (post := post ++ [id]) (by simp [wake, h1])
      · by_cases e : id = x
        · subst e
          refine .inl ⟨_, Ahead.yielder (s := s.wake id) (pre := s.yielders) (post := []) rfl, ?_⟩
          have := h.count
          have : s.paused.length > 0 := List.length_pos_of_mem hid
          simp only [wake]; omega
        · refine .inr ⟨by simp [wake, hx]; exact fun e' => e e'.symm, hk⟩
    exact yield_adv (s := s.wake id) hw hb'
  · exact .refl hb

theorem op_adv {s : Sco} (h : WF s) (o : Op) (e : o.enabled s) (hm : o ≠ .mainNext) (h0 : s.nextId ≠ 0) {x k : Nat} (hb : Bound s x k) : Adv x k s (s.step o) := by
  cases o with
  | mainNext => exact absurd rfl hm
  | mainStart => exact absurd e.2 h0
  | yield => exact yield_adv h hb
  | resume id => exact resume_adv h id hb
  | mainResume id => exact resume_adv h id hb
  | start =>
    obtain ⟨c, hc⟩ := Option.isSome_iff_exists.1 (show s.cur.isSome from e)
    have hs : s.start = { s with nextId := s.nextId + 1, runners := s.runners ++ [c], nrunners := s.nrunners + 1, cur := some (s.nextId + 1) } := by
      unfold start; rw [hc]
    simp only [step]; rw [hs]
    refine ⟨by simp, [], rfl, .inr ⟨k + 2, ?_, by simp⟩⟩
    rcases hb with ⟨k', h1, h2⟩ | ⟨hx, hk⟩
    · cases h1 with
      | @runner pre post h1 => exact .inl ⟨_, Ahead.runner (pre := pre) (post := post ++ [c]) (by simp [h1]), by omega⟩
      | @yielder pre post h1 => exact .inl ⟨_, Ahead.yielder (pre := pre) (post := post) (by simp [h1]), by simp; omega⟩
    · refine .inr ⟨hx, ?_⟩
      simp; omega
  | pause =>
    obtain ⟨c, hc⟩ := Option.isSome_iff_exists.1 (show s.cur.isSome from e)
    simp only [step]
    rcases hb with hb | ⟨hx, hk⟩
    · have : s.pause = ({ s with paused := c :: s.paused, npaused := s.npaused + 1 } : Sco).switch false := by
        unfold pause; rw [hc]
      rw [this]
      exact qstep_adv (s := s) (add := []) (pause_wf' h hc) rfl rfl (by simp) rfl hb
    · have : s.pause = ({ s with paused := c :: s.paused, npaused := s.npaused + 1 } : Sco).switch false := by
        unfold pause; rw [hc]
      rw [this]
      exact sw_bound (pause_wf' h hc) (by simp [hx]) rfl rfl rfl (Nat.le_refl _) hk
  | finish =>
    simp only [step]
    rcases hb with hb | ⟨hx, hk⟩
    · exact qstep_adv (s := s) (add := []) (finish_wf' h) rfl rfl (by simp) rfl hb
    · exact sw_bound (finish_wf' h) hx rfl rfl rfl (by simp) hk
  | exit =>
    simp only [step]
    rcases hb with hb | ⟨hx, hk⟩
    · exact qstep_adv (s := s) (add := []) (exit_wf' h) rfl rfl (by simp) rfl hb
    · exact sw_bound (exit_wf' h) hx rfl rfl rfl (by simp) hk

/-- the main loop lets the coroutines run -/
theorem next_adv {s : Sco} (h : WF s) (hc : s.cur = none) {x k : Nat} (hb : (∃ k', Ahead s x k' ∧ k' ≤ k) ∨ (x ∈ s.paused ∧ 2 * (s.nextId - s.done.length) ≤ k)) :
    Adv x k s s.resume0 := by
  have hw' : WF' s := by
    obtain ⟨nr, ny, np, perm, bad, _⟩ := h
    refine ⟨nr, ny, np, ?_, bad⟩
    simpa [everybody, hc] using perm
  rcases hb with hb | ⟨hx, hk⟩
  · exact qstep_adv (s := s) (add := []) hw' rfl rfl (by simp) rfl hb
  · have hr := h.main hc
    obtain ⟨h1, h2, h3, new, h4, h5, h6, h7, h8, h9, h10⟩ := switch_spec hw' true
    have hn := h.count
    refine ⟨by simp [resume0], new, h4, .inr ⟨k - new.length, .inr ⟨by simp only [resume0]; rw [h1]; exact hx, ?_⟩, ?_⟩⟩
    · have := congrArg List.length h5
      simp only [ready, hr, List.nil_append, List.length_append] at this
      have hp : s.paused.length > 0 := List.length_pos_of_mem hx
      simp only [resume0]; rw [h3, h2]
      omega
    · have := congrArg List.length h5
      simp only [ready, hr, List.nil_append, List.length_append] at this
      have hp : s.paused.length > 0 := List.length_pos_of_mem hx
      have : s.nextId - s.done.length ≥ s.yielders.length := by omega
      omega

end Neco.Sco
