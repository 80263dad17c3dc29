import Verif.Proof.RtSwitch
import Verif.Props.RtEx
/-!
# Suspending, joining, sleeping and deadlines (C05, C06, C08, C09, C56)
-/
namespace Neco.Rt
open Neco.Err

/-! ## Being woken -/

/-- at the start of a pass the main loop makes ready everybody who is to be woken -/
theorem pass_wakes {ok} {s s' : S} (r : Reach ok s) (hc : s.sco.cur = none) (hm : s.main = .top) (hs : step s .tau = some s') {i : Nat} (h : Waking s i) (hb : Blocked s i) : Ready s' i := by
  unfold step at hs
  split at hs
  · cases hs
  simp only [hc, tauMain, hm] at hs
  have hw := reach_scoWF r
  have hp : s.sco.npaused > 0 := by
    rw [hw.np]; exact List.length_pos_of_mem hb
  have ha : s.sco.active = true := by unfold Sco.active; simp; omega
  rw [if_neg (by simp [ha]), if_pos hp] at hs
  cases hs
  right
  exact wakeAll_ready (s := { setList s .resumers [] with nresumers := s.nresumers - (s.lists .resumers).length }) hc
    (List.mem_map.mpr ⟨.co i, h, rfl⟩) hb

/-! ## C05 suspend and resume -/

/-- `neco_suspend` returns `NECO_OK` only after somebody resumed the coroutine during that call -/
/- The full statement, for every execution rather than the clean ones, is false: see
`C05_suspend_ok_not_general` below. -/
theorem C05_suspend_ok_partial {s : S} {i : Nat} (f : Fresh i s) {dl : Int} {d : Msg} (h : Returns s i (.suspend dl) OK d) : ∃ k, .resume k i ∈ since i s.log := by
  have r := f.reach
  obtain ⟨_, _, e⟩ := returns_ok f h
  obtain ⟨k, hk⟩ := e rfl
  exact ⟨k, mem_sn hk⟩

/-- a resume that takes effect names a live coroutine that is in a suspend call -/
theorem C05_resume_event {s : S} (r : Reach any s) {a b : List Ev} {k t : Nat} (h : s.log = a ++ .resume k t :: b) : t ∈ live b ∧ ∃ dl, pending t b = some (.suspend dl) := by
  obtain ⟨⟨dl, h1⟩, h2⟩ := (reach_resumeP r).split h
  exact ⟨h2, dl, h1⟩

/-- the result of `neco_resume`, by what holds at the call: success exactly if the coroutine is alive and in a
suspend call, not found exactly if there is no such live coroutine -/
theorem C05_resume_result {s : S} (r : Reach any s) {i t : Nat} {v : Int} {d : Msg} (h : Returns s i (.resume t) v d) {b : List Ev} (hb : s.log = since i s.log ++ .call i (.resume t) :: b) :
    (v = NOTFOUND ↔ t ∉ live b) ∧ (v = OK ↔ t ∈ live b ∧ ∃ dl, pending t b = some (.suspend dl)) ∧ (v = OK ∨ v = NOTFOUND ∨ v = NOTSUSPENDED) ∧
      (v = OK → .resume i t ∈ since i s.log) := by
  obtain ⟨s0, r0, hlog, hc, hu, hg, hp, hr, es, fs, hl, h2, h1⟩ := imm_call r h rfl hb
  have hall : (callSt s0 i (.resume t)).all = live b := by rw [← hlog, ← all_live r0]; rfl
  have hpi : ∀ c, pending i b ≠ some c := by
    intro c e; rw [← hlog] at e
    have h1 := (pending_call r0).mp e
    have h2 := (reach_invN r0 hg.2 i).ft
    unfold fits at h2; rw [hu] at h2; simp only at h2; exact h1.2 (h1.1.symm.trans h2)
  have hsu : ((callSt s0 i (.resume t)).co t).suspended = (s0.co t).suspended := callSt_field Co.suspended (fun _ _ => rfl) ..
  have hiff : t ∈ live b → ((s0.co t).suspended = true ↔ ∃ dl, pending t b = some (.suspend dl)) := by
    intro hl0
    by_cases hti : t = i
    · subst hti
      refine ⟨fun hx => ?_, fun ⟨dl, hx⟩ => absurd hx (hpi _)⟩
      have := ((reach_invF r0).cf t).su.mp hx; rw [hu] at this; cases this
    · rw [← hlog]; exact suspended_iff r0 hg.2 (by rw [hc]; simp; exact fun e => hti e.symm) (by rw [hlog]; exact hl0)
  simp only [doCall, doResume, hall, hsu] at hp h1
  by_cases hl0 : t ∈ live b
  · rw [if_neg (by simpa using hl0)] at hp h1
    have hi := hiff hl0
    split at hp
    · rename_i hx
      rw [pc_retv] at hp; cases hp
      rw [hx] at hi
      refine ⟨by simp [hl0, NOTFOUND, NOTSUSPENDED], ?_, by simp, fun e => absurd e (by decide)⟩
      constructor
      · intro e; exact absurd e (by decide)
      · intro hx; exact absurd (hi.mpr hx.2) (by simp)
    · rename_i hx
      rw [if_neg hx] at h1
      rw [pc_scoResume, pc_retv] at hp; cases hp
      have hx : (s0.co t).suspended = true := by simpa using hx
      refine ⟨by simp [hl0, NOTFOUND, OK], by simp [hl0, hi.mp hx], by simp, fun _ => ?_⟩
      have h3 : (.resume i t :: []) ++ (.call i (.resume t) :: b) = fs ++ .call i (.resume t) :: b := by
        rw [← h1]; simp [callSt, hlog]
      rw [h2, ← List.append_cancel_right h3]; simp
  · rw [if_pos (by simpa using hl0), pc_retv] at hp; cases hp
    exact ⟨by simp [hl0], by simp [hl0, NOTFOUND, OK], by simp, fun e => absurd e (by decide)⟩

/-- `neco_resume` of a coroutine blocked in `neco_suspend` makes it ready (it may even run at once) -/
theorem C05_resume_wakes {s s' : S} (r : Reach any s) {t : Nat} (hs : step s (.call (.resume t)) = some s') (hb : Blocked s t) {dl : Int} (hp : pending t s.log = some (.suspend dl)) (hl : t ∈ live s.log) :
    Ready s' t ∨ Running s' t := by
  have r' : Reach any s' := .step r _ trivial hs
  have hle := (mem_starts r' (k := t)).mp (by
    obtain ⟨es, he⟩ := step_suffix hs
    rw [he, starts_append]; exact List.mem_append_right _ (live_sub_starts hl))
  obtain ⟨i, hc, hu, _, rfl⟩ := step_call hs
  have hi : t ≠ i := by
    rintro rfl; exact absurd hb (WF.cur_not_paused (reach_scoWF r) hc)
  have hsu := (suspended_iff r (step_nofault hs) (by rw [hc]; simp; exact fun e => hi e.symm) hl).mpr ⟨dl, hp⟩
  have hd : t ∉ s.sco.done := live_place r hl
  have hrun : doCall (callSt s i (.resume t)) i (.resume t) = scoResume (retv (note (callSt s i (.resume t)) (.resume i t)) i OK) t := by
    simp only [doCall, doResume]
    rw [if_neg (by simp [callSt, all_live r, hl]), if_neg (by simp [callSt, upd_co, hi, hsu])]
  rw [hrun] at r' hle ⊢
  rcases place_of (reach_scoWF r') hle.1 hle.2 with h3 | h3 | h3 | h3
  · simp [callSt] at h3; exact absurd h3 hd
  · exact .inr h3
  · exact .inl h3
  · exact absurd rfl (mem_resume.mp h3).2

example : ∃ s, Fresh 2 s ∧ Returns s 2 (.suspend MAX) OK 0 := by
  obtain ⟨s, r, h⟩ := witnessC (a := false) (e := true) ([.call .start, .call (.suspend MAX), .tau, .call (.resume 2)] ++ tau 1)
    (p := fun s => returnsB s 2 (.suspend MAX) OK 0) (by decide +kernel)
  exact ⟨s, (returnsB_iff.mp h).fresh r, returnsB_iff.mp h⟩
example : ∃ s, Reach any s ∧ Returns s 1 (.resume 2) OK 0 := by
  obtain ⟨s, r, h⟩ := witnessA (a := false) (e := true) ([.call .start, .call (.suspend MAX), .tau, .call (.resume 2)] ++ tau 2 ++ [.call .yield])
    (p := fun s => returnsB s 1 (.resume 2) OK 0) (by decide +kernel)
  exact ⟨s, r, returnsB_iff.mp h⟩
example : ∃ s, Reach any s ∧ Returns s 1 (.resume 7) NOTFOUND 0 := by
  obtain ⟨s, r, h⟩ := witnessA (a := false) (e := true) [.call (.resume 7)] (p := fun s => returnsB s 1 (.resume 7) NOTFOUND 0) (by decide +kernel)
  exact ⟨s, r, returnsB_iff.mp h⟩
example : ∃ s s', Reach any s ∧ step s (.call (.resume 2)) = some s' ∧ Blocked s 2 ∧ pending 2 s.log = some (.suspend MAX) ∧ 2 ∈ live s.log := by
  obtain ⟨s, r, h⟩ := witnessA (a := false) (e := true) [.call .start, .call (.suspend MAX), .tau]
    (p := fun s => (step s (.call (.resume 2))).isSome && s.sco.paused.contains 2 && decide (pending 2 s.log = some (.suspend MAX)) && (live s.log).contains 2) (by decide +kernel)
  simp only [Bool.and_eq_true, Option.isSome_iff_exists] at h
  obtain ⟨⟨⟨⟨s', h1⟩, h2⟩, h3⟩, h4⟩ := h
  exact ⟨s, s', r, h1, by unfold Blocked; simpa using h2, by simpa using h3, by simpa using h4⟩

/-- in general `neco_suspend` can return `NECO_OK` although nobody resumed the coroutine: a select that is
canceled after it was scheduled to be woken leaves the wake-up behind, and it ends the next suspend -/
theorem C05_suspend_ok_not_general : ¬ ∀ s i dl d, Reach any s → Returns s i (.suspend dl) OK d → ∃ k, .resume k i ∈ s.log := by
  intro h
  obtain ⟨s, r, hw⟩ := witnessA (a := false) (e := true) (staleWake ++ [.call (.suspend MAX)] ++ tau 3 ++ [.events []] ++ tau 7 ++ [.finish] ++ tau 6 ++ [.finish] ++ tau 4)
    (p := fun s => returnsB s 2 (.suspend MAX) OK 0 && s.log.all (fun e => match e with | .resume _ _ => false | _ => true)) (by decide +kernel)
  rw [Bool.and_eq_true] at hw
  obtain ⟨k, hk⟩ := h s 2 MAX 0 r (returnsB_iff.mp hw.1)
  have := List.all_eq_true.mp hw.2 _ hk
  cases this

/-! ## C06 join -/

/-- after `neco_join` returned `NECO_OK`, the coroutine it named (if it existed at the call) has terminated -/
theorem C06_join_ok_partial {s : S} {i t : Nat} (f : Fresh i s) {dl : Int} {d : Msg} (h : Returns s i (.join t dl) OK d) {b : List Ev}
    (hb : s.log = since i s.log ++ .call i (.join t dl) :: b) (ht : t ∈ starts b) : t ∉ live s.log := by
  have r := f.reach
  obtain ⟨_, _, e⟩ := returns_ok f h
  have hn := starts_nodup r
  have key : ∀ e, e ∈ since i s.log → (e = .wake (.joinQ t) i ∨ e = .nowait (.joinQ t) i) → t ∉ live s.log := by
    intro e he hk
    obtain ⟨x, y, hxy⟩ := List.append_of_mem he
    have hl : s.log = (x ++ [e]) ++ (y ++ .call i (.join t dl) :: b) := by rw [hb, hxy]; simp
    have hP := (reach_joinP r).split (a := x) (e := e) (b := y ++ .call i (.join t dl) :: b) (by rw [hl]; simp)
    have hd : t ∉ live (y ++ .call i (.join t dl) :: b) := by
      rcases hk with rfl | rfl
      · exact hP.2
      · exact hP
    rw [hl] at hn ⊢
    exact dead_stays hn (by rw [starts_append]; exact List.mem_append_right _ ht) hd
  rcases e rfl with e | e
  · exact key _ (mem_sn e) (.inl rfl)
  · exact key _ (mem_sn e) (.inr rfl)

/-- in general a join can end too early: canceling a coroutine inside `neco_work` makes that call return before
the work is done, and the end of the work then ends the join (if another coroutine is inside `neco_work`) -/
theorem C06_join_ok_not_general : ¬ ∀ s i t dl d b, Reach any s → Returns s i (.join t dl) OK d → s.log = since i s.log ++ .call i (.join t dl) :: b → t ∈ starts b → t ∉ live s.log := by
  intro h
  obtain ⟨s, r, hw⟩ := scriptA [.on 1 (.call .start), .on 2 (.call .work), .raw (.submit true), .on 1 (.call .start), .on 3 (.call .work), .raw (.submit true), .on 1 (.call (.cancel 2 MAX)), .on 2 (.call (.join 1 MAX)), .on 2 (.call (.join 1 MAX)), .raw (.wdone 2)]
    (p := fun s => returnsB s 2 (.join 1 MAX) OK 0 && (live s.log).contains 1 && (starts ((s.log.dropWhile (fun e => !isCallOf 2 e)).drop 1)).contains 1 &&
      ((s.log.dropWhile (fun e => !isCallOf 2 e)).head? == some (.call 2 (.join 1 MAX)))) (by decide +kernel)
  simp only [Bool.and_eq_true] at hw
  obtain ⟨⟨⟨h1, h2⟩, h3⟩, h4⟩ := hw
  refine h s 2 1 MAX 0 ((s.log.dropWhile (fun e => !isCallOf 2 e)).drop 1) r (returnsB_iff.mp h1) ?_ (by simpa using h3) (by simpa using h2)
  have := List.takeWhile_append_dropWhile (p := fun e => !isCallOf 2 e) (l := s.log)
  unfold since
  cases hd : s.log.dropWhile (fun e => !isCallOf 2 e) with
  | nil => rw [hd] at h4; cases h4
  | cons e q => rw [hd] at h4 this; simp at h4; subst h4; exact this.symm

/-- joining a coroutine that does not exist or has terminated returns `NECO_OK` at once -/
theorem C06_join_nowait {s s' : S} (r : Reach any s) {i t : Nat} {dl : Int} (hc : Running s i) (ht : t ∉ live s.log) (hs : step s (.call (.join t dl)) = some s') :
    Running s' i ∧ ∃ d, Returns s' i (.join t dl) OK d := by
  obtain ⟨hu, _, rfl⟩ := step_call_of hs hc
  have hrun : doCall (callSt s i (.join t dl)) i (.join t dl) = retv (note (callSt s i (.join t dl)) (.nowait (.joinQ t) i)) i OK := by
    simp only [doCall, doJoin]; rw [if_pos (by simpa [callSt, all_live r] using ht)]
  rw [hrun]
  exact ⟨hc, returns_of_ret (step_guard hs) hc (by simp [callSt]) (by simp [callSt]) (by simp [callSt]) (pc_retv ..) (by simp [retv, setPc, upd_co, callSt]) (.inl (by decide))⟩

theorem join_self {s s' : S} (r : Reach any s) {i : Nat} {dl : Int} (hc : Running s i) (hs : step s (.call (.join i dl)) = some s') :
    Running s' i ∧ ∃ v, (s'.co i).pc = .ret v ∧ (v = PERM ∨ v = TIMEDOUT ∨ v = CANCELED) := by
  obtain ⟨hu, _, rfl⟩ := step_call_of hs hc
  have hi : i ∈ s.all := reach_invK r i (cur_le (reach_scoWF r) hc).1 (cur_le (reach_scoWF r) hc).2 (by rw [hu]; rfl)
  have hd := timed_dlCode (callSt s i (.join i dl)) i dl
  simp only [doCall, doJoin]
  rw [if_neg (by simpa [callSt] using hi)]
  split
  · rename_i hx
    exact ⟨hc, _, pc_retv .., by unfold timed at hd; rcases hd with h | h | h; · exact absurd h hx
                                 · exact .inr (.inl h)
                                 · exact .inr (.inr h)⟩
  · rw [if_pos trivial]; exact ⟨hc, _, pc_retv .., .inl rfl⟩

/-- a coroutine cannot join itself: the call does not wait, and does not succeed -/
theorem C06_join_self {s s' : S} (r : Reach any s) {i : Nat} {dl : Int} (hc : Running s i) (hs : step s (.call (.join i dl)) = some s') : Running s' i :=
  (join_self r hc hs).1
theorem C06_join_self_result {s : S} (r : Reach any s) {i : Nat} {dl : Int} {v : Int} {d : Msg} (h : Returns s i (.join i dl) v d) : v = PERM ∨ v = TIMEDOUT ∨ v = CANCELED := by
  obtain ⟨s0, s1, a, es, r0, _, hc, hs, ha, hp, hcl, hd, hl, hn⟩ := returns_settled r h
  rcases ha with rfl | ⟨rfl, hx, hnr⟩
  · obtain ⟨_, w, h1, h2⟩ := join_self r0 hc hs
    rw [hp] at h1; cases h1; exact h2
  · exfalso
    cases settle_by r0 hc hs hp hnr with
    | go h hy => rw [hx] at hy; cases hy
    | sel k c w h hc hv => rw [hx] at hc; obtain ⟨_, hc⟩ := hc; cases hc
    | work h hc hv => rw [hx] at hc; cases hc
    | blk b dl' h hc =>
      rw [hx] at hc
      have : b = .join := by
        cases b <;> simp [BlkC] at hc <;> first | rfl | (rename_i x; cases x <;> simp [BlkC] at hc)
      subst this
      exact join_other r0 h hx rfl
    | cancel t dl' h hc => rw [hx] at hc; cases hc
    | relock q m dl' h hc => rw [hx] at hc; cases hc

/-- no lost wake-up: whoever is blocked joining a coroutine that has terminated is about to be woken -/
theorem C06_join_wakes_partial {s : S} {i t : Nat} (f : Fresh i s) {dl : Int} (hb : Blocked s i) (hp : pending i s.log = some (.join t dl)) (ht : t ∉ live s.log) : Waking s i := by
  have r := f.reach
  obtain ⟨b, hpc, dl', hbc, _⟩ := blocked_blk r hb hp (by
    intro e; have := (f.coE.ww e).1; rw [((pending_call r).mp hp).1] at this; cases this)
  have : b = .join := by
    cases b <;> simp [BlkC] at hbc <;> first | rfl | (rename_i x; cases x <;> simp [BlkC] at hbc)
  subst this
  rcases (f.coE.bk _ hpc).lw hb with h | h
  · exfalso
    apply h
    rintro ⟨L, h1, h2, h3⟩
    have hpl := (reach_invL r).pl L _ h3
    have hcall := ((pending_call r).mp hp).1
    simp only [Node.owner] at hpl
    cases L <;> simp [place, hpc, hcall] at hpl h1 h2
    subst hpl
    have := reach_invQ r _ _ (.inl h3)
    rw [all_live r] at this; exact ht this
  · exact h

example : ∃ s, Fresh 1 s ∧ Returns s 1 (.join 2 MAX) OK 0 :=
  retF [.on 1 (.call .start), .on 2 (.call .yield), .on 1 (.call (.join 2 MAX)), .on 2 .finish] (by decide +kernel)
example : ∃ s, Fresh 1 s ∧ Returns s 1 (.join 1 MAX) PERM 0 := retF [.on 1 (.call (.join 1 MAX))] (by decide +kernel)
example : ∃ s, Fresh 1 s ∧ Returns s 1 (.join 9 MAX) OK 0 := retF [.on 1 (.call (.join 9 MAX))] (by decide +kernel)
example : ∃ s, Fresh 1 s ∧ Blocked s 1 ∧ pending 1 s.log = some (.join 2 MAX) ∧ 2 ∉ live s.log := by
  obtain ⟨s, r, h⟩ := scriptC [.on 1 (.call .start), .on 2 (.call .yield), .on 1 (.call (.join 2 MAX)), .on 2 .finish]
    (p := fun s => s.sco.paused.contains 1 && decide (pending 1 s.log = some (.join 2 MAX)) && !(live s.log).contains 2) (by decide +kernel)
  simp only [Bool.and_eq_true] at h
  exact ⟨s, pending_fresh r (c := .join 2 MAX) (by simpa using h.1.2), by unfold Blocked; simpa using h.1.1, by simpa using h.1.2, by simpa using h.2⟩

/-! ## C08 sleep -/

/-- `neco_sleep` returns `NECO_OK` only after its deadline -/
theorem C08_sleep_ok_partial {s : S} {i : Nat} (f : Fresh i s) {dl : Int} {d : Msg} (h : Returns s i (.sleep dl) OK d) : dl < s.clock :=
  (returns_ok f h).2.2 rfl

theorem C08_sleep_ok_not_general : ¬ ∀ s i dl d, Reach any s → Returns s i (.sleep dl) OK d → dl < s.clock := by
  intro h
  obtain ⟨s, r, hw⟩ := witnessA (a := false) (e := true) (staleWake ++ [.call (.sleep 1000)] ++ tau 3 ++ [.events []] ++ tau 7 ++ [.finish] ++ tau 6 ++ [.finish] ++ tau 4)
    (p := fun s => returnsB s 2 (.sleep 1000) OK 0 && decide (s.clock ≤ 1000)) (by decide +kernel)
  rw [Bool.and_eq_true] at hw
  have h1 := h s 2 1000 0 r (returnsB_iff.mp hw.1)
  have h2 : s.clock ≤ 1000 := by simpa using hw.2
  omega

/-- a sleep whose deadline has passed returns `NECO_TIMEDOUT` at once -/
theorem C08_sleep_past {s s' : S} {i : Nat} {dl : Int} (hc : Running s i) (hd : dl < s.clock) (hs : step s (.call (.sleep dl)) = some s') :
    Running s' i ∧ ∃ d, Returns s' i (.sleep dl) TIMEDOUT d := by
  obtain ⟨hu, _, rfl⟩ := step_call_of hs hc
  have hrun : doCall (callSt s i (.sleep dl)) i (.sleep dl) = retv (callSt s i (.sleep dl)) i TIMEDOUT := by
    simp only [doCall, doSleep]; rw [if_pos (by simpa [callSt] using hd)]
  rw [hrun]
  exact ⟨hc, returns_of_ret (step_guard hs) hc (by simp [callSt]) (by simp [callSt]) (by simp [callSt]) (pc_retv ..) (by simp [retv, setPc, upd_co, callSt]) (.inl (by decide))⟩

/-- `NECO_TIMEDOUT` from a sleep means that the deadline had passed when the call was made -/
theorem C08_sleep_timedout {s : S} (r : Reach any s) {i : Nat} {dl : Int} {d : Msg} (h : Returns s i (.sleep dl) TIMEDOUT d) :
    ∃ s0 s1 es, Reach any s0 ∧ Running s0 i ∧ step s0 (.call (.sleep dl)) = some s1 ∧ dl < s0.clock ∧ s.log = es ++ s1.log ∧ ∀ e ∈ es, isCallOf i e = false := by
  obtain ⟨s0, s1, a, es, r0, _, hc, hs, ha, hp, hcl, hd, hl, hn⟩ := returns_settled r h
  rcases ha with rfl | ⟨rfl, hx, hnr⟩
  · refine ⟨s0, s1, es, r0, hc, hs, ?_, hl, hn⟩
    obtain ⟨hu, _, rfl⟩ := step_call_of hs hc
    simp only [doCall, doSleep] at hp
    split at hp
    · assumption
    · rw [pc_copause] at hp; cases hp
  · exfalso
    cases settle_by r0 hc hs hp hnr with
    | go h hy => rw [hx] at hy; cases hy
    | sel k c w h hc hv => rw [hx] at hc; obtain ⟨_, hc⟩ := hc; cases hc
    | work h hc hv => rw [hx] at hc; cases hc
    | blk b dl' h hb =>
      rw [hx] at hb
      have : b = .sleep := by
        cases b <;> simp [BlkC] at hb <;> first | rfl | (rename_i x; cases x <;> simp [BlkC] at hb)
      subst this
      have hg := step_guard hs
      unfold step at hs; rw [if_neg hg] at hs; simp only [hc, tauCo, h] at hs; cases hs
      simp only [afterBlk, pc_retv] at hp
      split at hp <;> cases hp
    | cancel t dl' h hc => rw [hx] at hc; cases hc
    | relock q m dl' h hc => rw [hx] at hc; cases hc

example : ∃ s, Fresh 1 s ∧ Returns s 1 (.sleep 1000) OK 0 :=
  retF [.on 1 (.call (.sleep 1000)), .raw .tau, .raw (.clock 2000)] (by decide +kernel)
example : ∃ s, Reach any s ∧ Returns s 1 (.sleep 1000) TIMEDOUT 0 :=
  retA [.raw (.clock 2000), .on 1 (.call (.sleep 1000))] (by decide +kernel)

/-! ## C09 deadlines -/

/-- `NECO_TIMEDOUT` is returned only by a call with a deadline, and after it -/
theorem C09_timedout_partial {s : S} {i : Nat} (f : Fresh i s) {c : Call} {d : Msg} (h : Returns s i c TIMEDOUT d) : ∃ dl, callDl c = some dl ∧ dl < s.clock :=
  (returns_ok f h).2.1 rfl

/-- in general a call can return `NECO_TIMEDOUT` early: a `neco_cancel_dl` that ends because its target
terminated, in the pass in which its deadline passes, leaves the expiry recorded for the next call -/
theorem C09_timedout_not_general : ¬ ∀ s i c d, Reach any s → Returns s i c TIMEDOUT d → ∃ dl, callDl c = some dl ∧ dl < s.clock := by
  intro h
  obtain ⟨s, r, hw⟩ := scriptA [.on 1 (.call .start), .on 2 (.call (.setState false)), .on 2 (.call .yield), .on 1 (.call (.cancel 2 1000)), .on 2 .finish,
      .til (fun s => (s.lists .resumers).contains (.co 1)), .raw (.clock 2000), .on 1 (.call (.suspend MAX))]
    (p := fun s => returnsB s 1 (.suspend MAX) TIMEDOUT 0 && decide (s.clock ≤ MAX)) (by decide +kernel)
  rw [Bool.and_eq_true] at hw
  obtain ⟨dl, h1, h2⟩ := h s 1 (.suspend MAX) 0 r (returnsB_iff.mp hw.1)
  cases h1
  have := hw.2
  simp at this; omega

/-- the deadline stage of a pass makes ready everybody blocked in a call whose deadline has passed (except
that relocking the mutex at the end of `neco_cond_wait` has no deadline) -/
theorem C09_deadline_wakes {s s' : S} (r : Reach any s) (hc : s.sco.cur = none) (hm : s.main = .dl) (hs : step s .tau = some s') {i : Nat} {c : Call} {dl : Int}
    (hb : Blocked s i) (hp : pending i s.log = some c) (hd : callDl c = some dl) (h1 : dl < MAX) (h2 : dl < s.clock) (hr : ¬ Relocking s i) : Ready s' i := by
  have hw : (s.co i).pc ≠ .workWait := by
    intro e
    have := (reach_invN r (step_nofault hs) i).ft
    unfold fits at this; rw [e] at this; simp only at this
    rw [((pending_call r).mp hp).1] at this; subst this; cases hd
  obtain ⟨b, hpc, dl', hbc, hdl, hpz⟩ := blocked_blk r hb hp hw
  have he : dl' = dl := by
    cases b <;> simp [BlkC] at hbc <;> first | (subst hbc; simpa [callDl] using hd) | (obtain ⟨_, rfl⟩ := hbc; simpa [callDl] using hd) | (obtain ⟨_, _, rfl⟩ := hbc; simpa [callDl] using hd) | (exact absurd hpc hr) | skip
    · rename_i h; obtain ⟨_, rfl⟩ := h; simpa [callDl] using hd
    · rename_i x; cases x <;> simp only at hbc <;> obtain ⟨_, rfl⟩ := hbc <;> simpa [callDl] using hd
    · rename_i h; subst h; simpa [callDl] using hd
  subst he
  have hq : i ∈ s.dlq := ((reach_invF r).cf i).dq.mpr ⟨hpz, by rw [hdl]; exact h1⟩
  have hg := step_guard hs
  unfold step at hs; rw [if_neg hg] at hs; simp only [hc, tauMain, hm] at hs; cases hs
  right
  exact wakeAll_ready (s := markDl s _) hc (List.mem_filter.mpr ⟨hq, by simp [hdl, h2]⟩) hb

example : ∃ s, Fresh 1 s ∧ Returns s 1 (.suspend 1000) TIMEDOUT 0 :=
  retF [.on 1 (.call (.suspend 1000)), .raw .tau, .raw (.clock 2000)] (by decide +kernel)
example : ∃ s s', Reach any s ∧ s.sco.cur = none ∧ s.main = .dl ∧ step s .tau = some s' ∧ Blocked s 1 ∧ pending 1 s.log = some (.suspend 1000) ∧ 1000 < s.clock ∧ ¬ Relocking s 1 := by
  obtain ⟨s, r, h⟩ := scriptA [.on 1 (.call (.suspend 1000)), .raw .tau, .raw (.clock 2000)]
    (p := fun s => s.sco.cur == none && s.main == .dl && (step s .tau).isSome && s.sco.paused.contains 1 && decide (pending 1 s.log = some (.suspend 1000)) && decide (1000 < s.clock) && ((s.co 1).pc != .blk .relock)) (by decide +kernel)
  simp only [Bool.and_eq_true, Option.isSome_iff_exists] at h
  obtain ⟨⟨⟨⟨⟨⟨h1, h2⟩, s', h3⟩, h4⟩, h5⟩, h6⟩, h7⟩ := h
  exact ⟨s, s', r, by simpa using h1, by simpa using h2, h3, by unfold Blocked; simpa using h4, by simpa using h5, by simpa using h6, by unfold Relocking; simpa using h7⟩

/-! ## C56 results -/

/-- every call returns one of its documented results -/
theorem C56_codes {s : S} (r : Reach any s) {i : Nat} {c : Call} {v : Int} {d : Msg} (h : Returns s i c v d) : codes c v := returns_codes r h


example : ∃ s, Reach any s ∧ Returns s 1 (.resume 7) NOTFOUND 0 := retA [.on 1 (.call (.resume 7))] (by decide +kernel)

end Neco.Rt
