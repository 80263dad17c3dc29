import Verif.Proof.RtLife2
import Verif.Props.RtEx
/-!
# Starting, ending, suspending, joining, sleeping (C01, C02, C05, C06, C07, C08, C09, C56)

`Reach any s` ranges over all executions; `Fresh i s` says that the call `i` is in, or about to return from,
was made with no wake-up of `i` left over (see `NoStale` and the findings in DESIGN.md): it asks nothing
of other coroutines, nor of earlier calls of `i`.
-/
namespace Neco.Rt
open Neco.Err

/-! ## C01 identifiers -/

/-- every identifier is larger than all identifiers handed out before (the newest comes first) -/
theorem C01_ids_increase {s : S} (r : Reach any s) : (starts s.log).Pairwise (· > ·) := by
  rw [← starts_filter]
  have := (reach_invA r).st
  unfold rl at this; rw [this, List.pairwise_reverse]
  exact List.pairwise_lt_range' ..

/-- only started coroutines run -/
theorem C01_running_started {s : S} (r : Reach any s) {i : Nat} (h : Running s i) : i ∈ starts s.log :=
  (mem_starts r).mpr (cur_le (reach_scoWF r) h)

/-- `neco_getid` returns the identifier the coroutine was started with -/
theorem C01_getid {s : S} (r : Reach any s) {i : Nat} {v : Int} {d : Msg} (h : Returns s i .getid v d) : v = i := by
  obtain ⟨s0, s1, es, r0, hc, hs, hp, _⟩ := imm_returns r h rfl
  unfold step at hs
  split at hs
  · cases hs
  simp only [hc] at hs
  split at hs <;> cases hs
  simp only [doCall, pc_retv] at hp
  cases hp; rfl

/-- `neco_starterid` returns the identifier of the coroutine that called `neco_start` -/
theorem C01_starterid {s : S} (r : Reach any s) {i p : Nat} {v : Int} {d : Msg} (h : Returns s i .starterid v d) (hp : .start (some p) i ∈ s.log) : v = p := by
  obtain ⟨s0, s1, es, r0, hc, hs, hpc, _, hl, _⟩ := imm_returns r h rfl
  have hs0 := hs
  have r1 : Reach any s1 := .step r0 _ trivial hs
  -- the start of `i` is older than the call
  have hin : i ∈ starts s0.log := (mem_starts r0).mpr (cur_le (reach_scoWF r0) hc)
  obtain ⟨q, hq⟩ := starts_mem.mp hin
  obtain ⟨fs, hfs⟩ := step_suffix hs
  have hq1 : Ev.start q i ∈ s.log := by rw [hl, hfs]; simp [hq]
  have huniq : q = some p := start_unique (starts_nodup r) hq1 hp
  have hst := (reach_invP r0).sp p i (by subst huniq; unfold rl; simp [List.mem_filter, hq, Ev.rare])
  unfold step at hs
  split at hs
  · cases hs
  simp only [hc] at hs
  split at hs <;> cases hs
  simp only [doCall, pc_retv] at hpc
  cases hpc; simp [upd_co, hst]

/-- `neco_lastid` returns the identifier of the last coroutine the caller started -/
theorem C01_lastid {s : S} (r : Reach any s) {i k : Nat} {v : Int} {d : Msg} (h : Returns s i .lastid v d) (hk : lastChild i s.log = some k) : v = k := by
  obtain ⟨s0, s1, es, r0, hc, hs, hpc, _, hl, hn⟩ := imm_returns r h rfl
  have hl1 : s1.log = .call i .lastid :: s0.log := by
    unfold step at hs
    split at hs
    · cases hs
    simp only [hc] at hs
    split at hs <;> cases hs
    rfl
  have hst := reach_startP r
  have hk' : lastChild i (rl s) = some k := by unfold rl; rw [lastChild_filter]; exact hk
  have hrl : rl s = es.filter Ev.rare ++ .call i .lastid :: rl s0 := by
    unfold rl; rw [hl, hl1, List.filter_append, List.filter_cons]; rfl
  rw [hrl] at hst hk'
  rw [no_child hst (by simp) (fun e he => hn e (List.mem_filter.mp he).1)] at hk'
  have := (reach_invP r0).lc i k hk'
  unfold step at hs
  split at hs
  · cases hs
  simp only [hc] at hs
  split at hs <;> cases hs
  simp only [doCall, pc_retv] at hpc
  cases hpc; simp [upd_co, this]

/-- the child started by `neco_start` has the identifier `neco_lastid` will report -/
theorem C01_lastid_after_start {s s1 : S} (r : Reach any s) {i : Nat} (hc : Running s i) (hs : step s (.call .start) = some s1) :
    ∃ k, Running s1 k ∧ lastChild i s1.log = some k ∧ k ∉ starts s.log ∧ .start (some i) k ∈ s1.log := by
  obtain ⟨j, g, hj, _, _, _, _, _, h1, h2, _⟩ := start_new (.inl rfl) hs
  unfold Running at hc; rw [hc] at hj; cases hj
  refine ⟨s.sco.nextId + 1, ?_, ?_, ?_, ?_⟩
  · unfold Running; rw [h1]; unfold Sco.start; rw [hc]
  · rcases h2 with h2 | h2 <;> simp [h2, lastChild]
  · intro hm; have := (mem_starts r).mp hm; omega
  · rcases h2 with h2 | h2 <;> simp [h2]

/-- coroutine 1 starts 2, which asks for its identifier and its starter's; 1 asks for its last child -/
def exIds : List Act := [.call .start, .call .getid]
example : ∃ s, Reach any s ∧ Returns s 2 .getid 2 0 ∧ .start (some 1) 2 ∈ s.log := by
  obtain ⟨s, r, h⟩ := witnessA (a := false) (e := true) exIds (p := fun s => returnsB s 2 .getid 2 0 && s.log.contains (.start (some 1) 2)) (by decide +kernel)
  simp only [Bool.and_eq_true] at h
  exact ⟨s, r, returnsB_iff.mp h.1, by simpa using h.2⟩
example : ∃ s, Reach any s ∧ Returns s 2 .starterid 1 0 ∧ .start (some 1) 2 ∈ s.log := by
  obtain ⟨s, r, h⟩ := witnessA (a := false) (e := true) [.call .start, .call .starterid] (p := fun s => returnsB s 2 .starterid 1 0 && s.log.contains (.start (some 1) 2)) (by decide +kernel)
  simp only [Bool.and_eq_true] at h
  exact ⟨s, r, returnsB_iff.mp h.1, by simpa using h.2⟩
example : ∃ s, Reach any s ∧ Returns s 1 .lastid 3 0 ∧ lastChild 1 s.log = some 3 := by
  obtain ⟨s, r, h⟩ := witnessA (a := false) (e := true) ([.call .start, .finish] ++ tau 4 ++ [.call .start, .finish] ++ tau 4 ++ [.call .lastid])
    (p := fun s => returnsB s 1 .lastid 3 0 && decide (lastChild 1 s.log = some 3)) (by decide +kernel)
  simp only [Bool.and_eq_true] at h
  exact ⟨s, r, returnsB_iff.mp h.1, by simpa using h.2⟩

/-! ## C02 exactly one state; C07 the end of the loop -/

/-- a coroutine started and not terminated is running, ready or blocked ... -/
theorem C02_somewhere {s : S} (r : Reach any s) {k : Nat} (h : k ∈ live s.log) : Running s k ∨ Ready s k ∨ Blocked s k := by
  obtain ⟨h1, h2⟩ := (mem_starts r).mp (live_sub_starts h)
  rcases place_of (reach_scoWF r) h1 h2 with h3 | h3 | h3 | h3
  · exact absurd h3 (live_place r h)
  · exact .inl h3
  · exact .inr (.inl h3)
  · exact .inr (.inr h3)

/-- ... and in only one of these states, and in no queue twice -/
theorem C02_not_two {s : S} (r : Reach any s) (k : Nat) :
    ¬ (Running s k ∧ Ready s k) ∧ ¬ (Running s k ∧ Blocked s k) ∧ ¬ (Ready s k ∧ Blocked s k) ∧ (s.sco.runners ++ s.sco.yielders).Nodup ∧ s.sco.paused.Nodup := by
  have hn := (reach_scoWF r).nodup
  unfold Running Ready Blocked
  simp only [Sco.everybody, List.nodup_append, List.mem_append] at hn
  refine ⟨?_, ?_, ?_, ?_, ?_⟩
  · rintro ⟨h1, h2⟩
    have hc : k ∈ s.sco.cur.toList := by simp [h1]
    rcases h2 with h2 | h2
    · exact hn.1.1.1.2.2 k hc k h2 rfl
    · exact hn.1.1.2.2 k (.inl hc) k h2 rfl
  · rintro ⟨h1, h2⟩
    exact hn.1.2.2 k (.inl (.inl (by simp [h1]))) k h2 rfl
  · rintro ⟨h1, h2⟩
    rcases h1 with h1 | h1
    · exact hn.1.2.2 k (.inl (.inr h1)) k h2 rfl
    · exact hn.1.2.2 k (.inr h1) k h2 rfl
  · rw [List.nodup_append]
    exact ⟨hn.1.1.1.2.1, hn.1.1.2.1, fun a ha b hb => hn.1.1.2.2 a (.inr ha) b hb⟩
  · exact hn.1.2.1

/-- a coroutine that finished is never run again: once it is neither running, ready nor blocked, it stays so -/
theorem C02_over_stays {s s' : S} {a : Act} (r : Reach any s) (hs : step s a = some s') {k : Nat} (hk : k ∈ starts s.log)
    (h : ¬ (Running s k ∨ Ready s k ∨ Blocked s k)) : ¬ (Running s' k ∨ Ready s' k ∨ Blocked s' k) := by
  obtain ⟨h1, h2⟩ := (mem_starts r).mp hk
  have r' : Reach any s' := .step r a trivial hs
  have hd : k ∈ s.sco.done := by
    rcases place_of (reach_scoWF r) h1 h2 with h3 | h3 | h3 | h3
    · exact h3
    · exact absurd (.inl h3) h
    · exact absurd (.inr (.inl h3)) h
    · exact absurd (.inr (.inr h3)) h
  have hp : (s.co k).pc = .dead := ((reach_invD r).dd k).mp hd
  have hc : s.sco.cur ≠ some k := fun e => h (.inl e)
  have hm := step_other (reach_invL r) (reach_invC r) hs hc (fun _ e => by omega) (((reach_invF r).cf k).evU)
  have hd' : k ∈ s'.sco.done := ((reach_invD r').dd k).mpr (by rw [hm.pc.1]; exact hp)
  have hn := (reach_scoWF r').nodup
  simp only [Sco.everybody, List.nodup_append, List.mem_append] at hn
  have key := fun x hx => hn.2.2 x hx k hd'
  rintro (hx | (hx | hx) | hx)
  · exact key k (.inl (.inl (.inl (by have : s'.sco.cur = some k := hx; simp [this])))) rfl
  · exact key k (.inl (.inl (.inr hx))) rfl
  · exact key k (.inl (.inr hx)) rfl
  · exact key k (.inr hx) rfl

/-- the outermost `neco_start` returns only when no coroutine is left -/
theorem C07_nobody_left {s : S} (r : Reach any s) (h : .halt ∈ s.log) : live s.log = [] ∧ ∀ k, ¬ (Running s k ∨ Ready s k ∨ Blocked s k) := by
  obtain ⟨h1, h2, h3, h4⟩ := main_done r h
  have hk : ∀ k, ¬ (Running s k ∨ Ready s k ∨ Blocked s k) := by
    intro k; unfold Running Ready Blocked; rw [h1, h2, h3, h4]; simp
  refine ⟨?_, hk⟩
  apply List.eq_nil_iff_forall_not_mem.mpr
  intro k hm; exact hk k (C02_somewhere r hm)

/-- the scheduler never gets stuck: as long as the loop has not returned, the library or the running
coroutine can go on (`tau`), or the library waits for the outside (`submit`, `events`) or the running
coroutine is in user code and can return from its function -/
theorem C07_progress {s : S} (r : Reach any s) (h1 : .halt ∉ s.log) (h2 : s.dead = false) (h3 : s.fault = false) :
    ∃ a s', a ∈ [Act.tau, .finish, .submit true, .events []] ∧ step s a = some s' := by
  have hm : s.main ≠ .done := fun e => h1 ((reach_invH r).h2 e).1
  have hg : ¬ (s.dead = true ∨ s.fault = true ∨ s.main = .done) := by simp [h2, h3, hm]
  cases hc : s.sco.cur with
  | none =>
    by_cases he : s.main = .ev
    · refine ⟨.events [], { (if s.nevwaiters > 0 then mEvents s [] else s) with main := .sig }, by simp, ?_⟩
      unfold step; rw [if_neg hg]; dsimp only; rw [if_pos ⟨hc, he, rfl⟩]
    · refine ⟨.tau, ?_⟩
      unfold step; rw [if_neg hg]; simp only [hc]
      unfold tauMain
      split
      · split
        · exact ⟨_, by simp, rfl⟩
        · split <;> exact ⟨_, by simp, rfl⟩
      · exact ⟨_, by simp, rfl⟩
      · rename_i e; exact absurd e he
      · exact ⟨_, by simp, rfl⟩
      · exact ⟨_, by simp, rfl⟩
      · exact ⟨_, by simp, rfl⟩
      · exact ⟨_, by simp, rfl⟩
      · rename_i e; exact absurd e hm
  | some i =>
    by_cases hu : (s.co i).pc = .user
    · refine ⟨.finish, setPc s i (.exitRun false), by simp, ?_⟩
      unfold step; rw [if_neg hg]; simp [hc, hu]
    by_cases hw : (s.co i).pc = .workTry
    · refine ⟨.submit true, ?_⟩
      unfold step; rw [if_neg hg]; simp only [hc, hw]; exact ⟨_, by simp, rfl⟩
    · refine ⟨.tau, ?_⟩
      have hd := cur_not_dead r hc
      unfold step; rw [if_neg hg]; simp only [hc]
      cases ht : tauCo s i with
      | some s' => exact ⟨s', by simp, rfl⟩
      | none =>
        exfalso
        unfold tauCo at ht
        split at ht
        · contradiction
        · contradiction
        · contradiction
        · cases ht
        · (repeat' split at ht) <;> cases ht
        · cases ht
        · cases ht
        · cases ht
        · cases ht
        · split at ht <;> cases ht
        · split at ht <;> cases ht
        · cases ht
        · cases ht

example : ∃ s, Reach any s ∧ 2 ∈ live s.log ∧ Blocked s 2 ∧ Running s 1 := by
  obtain ⟨s, r, h⟩ := witnessA (a := false) (e := true) [.call .start, .call (.suspend MAX)]
    (p := fun s => (live s.log).contains 2 && s.sco.paused.contains 2 && decide (s.sco.cur = some 1)) (by decide +kernel)
  simp only [Bool.and_eq_true] at h
  exact ⟨s, r, by simpa using h.1.1, by unfold Blocked; simpa using h.1.2, by unfold Running; simpa using h.2⟩
example : ∃ s, Reach any s ∧ .halt ∈ s.log ∧ starts s.log = [2, 1] := by
  obtain ⟨s, r, h⟩ := witnessA (a := false) (e := true) ([.call .start, .finish] ++ tau 4 ++ [.finish] ++ tau 4)
    (p := fun s => s.log.contains .halt && decide (starts s.log = [2, 1])) (by decide +kernel)
  simp only [Bool.and_eq_true] at h
  exact ⟨s, r, by simpa using h.1, by simpa using h.2⟩

end Neco.Rt
