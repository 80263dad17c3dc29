import Verif.Proof.RtTime
import Verif.Props.RtQuiet
/-!
# C75: how long the main loop asks the system to wait
-/
namespace Neco.Rt
open Neco.Err

/-- `w` nanoseconds are asked for, when the main loop gets here with times that fit 64 bits and nothing undefined before -/
structure Waits (s : S) (w : Int) : Prop where
  main : s.main = .io
  idle : s.sco.cur = none
  sane : s.fault = false
  times : Times s
  asks : kernelWait s = some w

/-- **C75**: the wait is always defined (no signed overflow) and takes at most 500 ms, so an event that the system does not report is
looked at again after that time -/
theorem C75_defined {s : S} (r : Reach any s) (hm : s.main = .io) (hc : s.sco.cur = none) (hf : s.fault = false) (ht : Times s) :
    ∃ w, Waits s w ∧ 0 ≤ w ∧ w ≤ 500000000 := by
  have h := timeout_eq r hf hc ht
  have h0 : 0 ≤ Arith.upTo (firstDl s) s.clock ∧ Arith.upTo (firstDl s) s.clock ≤ 500000000 := by unfold Arith.upTo; split <;> omega
  obtain ⟨w, h1, h2, h3, _⟩ := kernelWait_le h (by split <;> omega)
  refine ⟨w, ⟨hm, hc, hf, ht, h1⟩, h2, ?_⟩
  split at h3 <;> omega

theorem Waits.time {s : S} (r : Reach any s) {w : Int} (h : Waits s w) :
    0 ≤ w ∧ (0 < s.sco.nyielders ∨ sigPending s = true ∨ 0 < s.niowaiters → w = 0) ∧ w ≤ Arith.upTo (firstDl s) s.clock ∧
    (¬ (0 < s.sco.nyielders ∨ sigPending s = true ∨ 0 < s.niowaiters) → Arith.upTo (firstDl s) s.clock - 1000000 < w) ∧
    (¬ (0 < s.sco.nyielders ∨ sigPending s = true ∨ 0 < s.niowaiters) → s.nevwaiters ≤ 0 → w = Arith.upTo (firstDl s) s.clock) := by
  obtain ⟨_, hc, hf, ht, hw⟩ := h
  have h := timeout_eq r hf hc ht
  have h0 : 0 ≤ Arith.upTo (firstDl s) s.clock := by unfold Arith.upTo; split <;> omega
  simp only [decide_eq_true_iff] at h
  obtain ⟨w', h1, h2, h3, h4⟩ := kernelWait_le h (by split <;> omega)
  rw [hw] at h1; cases h1
  refine ⟨h2, fun hp => ?_, ?_, fun hp => ?_, fun hp he => ?_⟩
  · rw [if_pos hp] at h3; omega
  · split at h3 <;> omega
  · rw [if_neg hp] at h4; omega
  · rw [if_neg hp] at h
    unfold kernelWait at hw
    rw [h] at hw
    simp only [Option.map_some, Option.some.injEq] at hw
    rw [if_neg (by omega)] at hw; omega

/-- **C75**: it does not wait while a coroutine is ready to run -/
theorem C75_ready {s : S} (r : Reach any s) {w : Int} (h : Waits s w) {j : Nat} (hj : Ready s j) : w = 0 :=
  (h.time r).2.1 (.inl ((nyield_pos r h.idle).2 ⟨j, hj⟩))

/-- **C75**: it does not wait beyond the deadline of any call that blocks -/
theorem C75_deadline {s : S} (r : Reach any s) {w : Int} (h : Waits s w) {j : Nat} {dl : Int} (hj : due s j dl) : s.clock + w ≤ max s.clock dl := by
  have ht := h.time r
  by_cases hr : ∃ k, Ready s k
  · have := ht.2.1 (.inl ((nyield_pos r h.idle).2 hr)); omega
  · have h3 := ht.2.2.1
    cases hd : firstDl s with
    | none => exact absurd hj (firstDl_none r h.sane hd j dl)
    | some d =>
      have := (firstDl_due r h.sane h.idle (fun k hk => hr ⟨k, hk⟩) hd).2 j dl hj
      rw [hd] at h3; simp only [Arith.upTo] at h3; omega

theorem sigPending_iff {ok} {s : S} (r : Reach ok s) : sigPending s = true ↔ ∃ n, s.sigqueue n ≠ 0 := by
  unfold sigPending
  rw [List.any_eq_true]
  constructor
  · rintro ⟨n, _, h⟩; exact ⟨n, of_decide_eq_true h⟩
  · rintro ⟨n, h⟩; exact ⟨n, List.mem_range.2 (sigqueue_low r h), decide_eq_true h⟩

/-- **C75**: it does not wait while a signal that is watched has arrived and is not delivered -/
theorem C75_signal {n : Nat} {s : S} (r : Reach (StillWatched n) s) {w : Int} (h : Waits s w) (hp : delivered n s.log < arrived n s.log) : w = 0 :=
  (h.time r.weaken).2.1 (.inr (.inl ((sigPending_iff r).2 ⟨n, by have := C34_no_loss_partial r; omega⟩)))

/-- **C75**: it does not wait while a coroutine is blocked in `neco_work` -/
theorem C75_work {s : S} (r : Reach any s) {w : Int} (h : Waits s w) {j : Nat} (hb : Blocked s j) (hp : pending j s.log = some .work) : w = 0 :=
  (h.time r).2.1 (.inr (.inr (io_pos' r h.sane hb hp)))

/-- **C75**, no busy loop: when no coroutine is ready, every signal that arrived is delivered and nobody is in `neco_work`, it waits as long
as the deadlines allow, up to 500 ms; less than a millisecond is lost to rounding. (Partial: see `C75_spin_not_general` for the signals.) -/
theorem C75_sleeps_partial {s : S} (r : Reach any s) {w : Int} (h : Waits s w) (hr : ∀ j, ¬ Ready s j) (hs : ∀ n, arrived n s.log ≤ delivered n s.log)
    (hw : ∀ j, Blocked s j → pending j s.log ≠ some .work) {L : Int} (hL : L ≤ 500000000) (hd : ∀ j dl, due s j dl → s.clock + L ≤ dl) :
    L - 1000000 < w ∧ (0 ≤ L → (∀ j c, Blocked s j → pending j s.log = some c → c.wk ≠ some .ev) → L ≤ w) := by
  have ht := h.time r
  have hn : ¬ (0 < s.sco.nyielders ∨ sigPending s = true ∨ 0 < s.niowaiters) := by
    rintro (a | a | a)
    · obtain ⟨j, hj⟩ := (nyield_pos r h.idle).1 a; exact hr j hj
    · obtain ⟨n, hn⟩ := (sigPending_iff r).1 a
      have := sig_le r n; have := hs n; omega
    · rcases io_pos r h.sane h.idle a with ⟨j, hj⟩ | ⟨j, h1, h2⟩
      · exact hr j hj
      · exact hw j h1 h2
  have hu : L ≤ Arith.upTo (firstDl s) s.clock := by
    cases hq : firstDl s with
    | none => simpa [Arith.upTo] using hL
    | some d =>
      obtain ⟨⟨j, hj⟩, _⟩ := firstDl_due r h.sane h.idle hr hq
      have := hd j d hj
      simp only [Arith.upTo]; omega
  have h4 := ht.2.2.2.1 hn
  refine ⟨by omega, fun _ he => ?_⟩
  have h5 : s.nevwaiters ≤ 0 := by
    have h1 : s.nevwaiters = waiting s .ev := stat_waiting r h.sane .ev
    have h2 : waiting s .ev = 0 := by
      unfold waiting
      refine List.countP_eq_zero.2 fun j hj hk => ?_
      rw [Bool.and_eq_true, beq_iff_eq] at hk
      obtain ⟨hiw, hk⟩ := hk
      have hp : ∃ c, pending j s.log = some c ∧ c.wk = some .ev := by
        unfold kindOf at hk
        split at hk
        · cases hk
        · cases hq : pending j s.log with
          | none => rw [hq] at hk; cases hk
          | some c => rw [hq] at hk; exact ⟨c, rfl, hk⟩
      obtain ⟨c, hp, hc⟩ := hp
      have hid := call_id r (pending_mem hp)
      refine he j c (idle_where r h.idle hr hid.1 hid.2 ?_) hp hc
      intro e; unfold inWait at hiw; rw [e] at hiw; cases hiw
    omega
  rw [ht.2.2.2.2 hn h5]; exact hu

/-! ## A busy loop -/

/-- one pass of the main loop in which the system reports no event -/
def pass : List Act := [.tau, .events [], .tau, .tau, .tau, .tau, .tau]

/-- nobody runs or is ready, nothing is to be taken up, no deadline has passed, and the lowest pending signal is one that is watched and that
nobody waits for -/
def spins (n : Nat) (s : S) : Bool :=
  s.main == .io && s.sco.cur == none && !s.dead && !s.fault && s.sco.nrunners == 0 && s.sco.nyielders == 0 && decide (s.sco.npaused > 0) && !s.sco.exitReq &&
  (s.lists .resumers).isEmpty && decide (s.niowaiters = 0) && (List.range 32).find? (fun n => decide (s.sigqueue n ≠ 0)) == some n && decide (s.sigwatchers n ≠ 0) &&
  (s.lists .sigQ).all (fun w => !(s.co w.owner).sigmask.testBit n) && s.dlq.all (fun i => !decide ((s.co i).deadline < s.clock)) && s.pool.isEmpty

theorem spin_loop {n : Nat} {s : S} (h : spins n s = true) : run s pass = some s := by
  simp only [spins, Bool.and_eq_true, beq_iff_eq, Bool.not_eq_true', decide_eq_true_eq, List.isEmpty_iff] at h
  obtain ⟨⟨⟨⟨⟨⟨⟨⟨⟨⟨⟨⟨⟨⟨h1, h2⟩, h3⟩, h4⟩, h5⟩, h6⟩, h7⟩, h8⟩, h9⟩, h10⟩, h11⟩, h12⟩, h13⟩, h14⟩, h15⟩ := h
  have hio : mIo s = s := by unfold mIo; rw [if_neg (by omega)]
  have hsig : mSig { s with main := .sig } = { s with main := .sig } := by
    unfold mSig
    simp only [h11]
    rw [if_neg h12]
    have : (s.lists .sigQ).find? (fun w => (s.co w.owner).sigmask.testBit n) = none := by
      rw [List.find?_eq_none]
      intro w hw
      have := List.all_eq_true.1 h13 w hw
      simpa using this
    simp only [this]
  have hdl : mDl { s with main := .dl } = { s with main := .dl } := by
    unfold mDl
    have : s.dlq.filter (fun i => decide ((s.co i).deadline < s.clock)) = [] := by
      rw [List.filter_eq_nil_iff]
      intro i hi
      have := List.all_eq_true.1 h14 i hi
      simpa using this
    simp [this, wakeAll, markDl]
  have hrc : mRc { s with main := .rc } = { s with main := .rc } := by
    unfold mRc; simp [h15]
  have hsw : s.sco.resume0 = s.sco := by
    unfold Sco.resume0 Sco.switch
    rw [if_pos h5, if_pos (.inl h6)]
    unfold Sco.toMain
    rw [← h2, ← h8]
  have hre : mResume { s with main := .top } = { s with main := .top } := by
    unfold mResume
    have hl := setList_self { s with main := .top } .resumers
    rw [show S.lists { s with main := .top } .resumers = [] from h9] at hl
    simp only [h9, List.map_nil, wakeAll, List.length_nil, hl]
    simp
  have hac : s.sco.active = true := by unfold Sco.active; simp; omega
  have hev : (if s.nevwaiters > 0 then mEvents { s with main := .ev } [] else { s with main := .ev }) = { s with main := .ev } := by
    simp [mEvents]
  have st : ∀ p, step { s with main := p } .tau = tauMain { s with main := p } := by
    intro p; unfold step; simp [h2, h3, h4]
    rintro rfl; simp [tauMain]
  have e0 : s = { s with main := .io } := by rw [← h1]
  have s1 : step s .tau = some { s with main := .ev } := by
    conv => lhs; rw [e0, st]
    simp only [tauMain]
    rw [← e0, hio]
  have s2 : step { s with main := .ev } (.events []) = some { s with main := .sig } := by
    unfold step; simp [h2, h3, h4, evsOk, mEvents]
  have s3 : step { s with main := .sig } .tau = some { s with main := .dl } := by
    rw [st]; simp only [tauMain]; rw [hsig]
  have s4 : step { s with main := .dl } .tau = some { s with main := .rc } := by
    rw [st]; simp only [tauMain]; rw [hdl]
  have s5 : step { s with main := .rc } .tau = some { s with main := .go } := by
    rw [st]; simp only [tauMain]; rw [hrc]
  have s6 : step { s with main := .go } .tau = some { s with main := .top } := by
    rw [st]; simp only [tauMain]; rw [hsw]
  have s7 : step { s with main := .top } .tau = some s := by
    rw [st]; simp only [tauMain, hac, hre]
    rw [if_neg (by simp), if_pos h7, ← e0]
  unfold pass
  simp only [run, s1, s2, s3, s4, s5, s6, s7]

theorem run_app (s : S) (l m : List Act) : run s (l ++ m) = (run s l).bind (fun t => run t m) := by
  induction l generalizing s with
  | nil => rfl
  | cons a l ih =>
    simp only [List.cons_append, run]
    split
    · exact ih _
    · rfl

theorem run_cycle {s : S} {l : List Act} (h : run s l = some s) (k : Nat) : run s (List.replicate k l).flatten = some s := by
  induction k with
  | zero => rfl
  | succ k ih =>
    rw [List.replicate_succ, List.flatten_cons, run_app, h]
    exact ih

/-- times that fit, decidably -/
theorem times_of {s : S} (r : Reach any s) (hf : s.fault = false) (h : (decide (s.clock ≤ MAX) && s.dlq.all (fun i => decide (-MAX - 1 ≤ (s.co i).deadline))) = true) : Times s := by
  rw [Bool.and_eq_true, decide_eq_true_eq, List.all_eq_true] at h
  refine ⟨h.1, fun j dl hj => ?_⟩
  obtain ⟨_, h2, h3⟩ := (due_iff r hf j dl).1 hj
  have := of_decide_eq_true (h.2 j h2)
  omega

/-- a coroutine watches SIGUSR1 and sleeps; the signal arrives before anybody waits for it -/
def spSome : List Sc := [.on 1 (.call (.sigWatch 10)), .on 1 (.call (.sleep 5000000000)), .til (fun s => s.main == .ev && s.sco.cur == none), .raw (.signal 10)]

/-- **C75**, negative: with a pending signal that is watched but that nobody waits for, the main loop goes round and round without waiting at all,
although no coroutine is ready, nobody is in `neco_work` and the only deadline is almost 5 s away; every pass ends in the very state it started in -/
theorem C75_spin_not_general : ∃ s, Reach any s ∧ Waits s 0 ∧ (∀ j, ¬ Ready s j) ∧ (∀ j, Blocked s j → pending j s.log ≠ some .work) ∧
    (∀ j dl, due s j dl → s.clock + 4000000000 ≤ dl) ∧ ∀ k, run s (List.replicate k pass).flatten = some s := by
  obtain ⟨s, r, hp⟩ := scriptA spSome
    (p := fun s => spins 10 s && decide (s.clock ≤ MAX) && s.dlq.all (fun i => decide (-MAX - 1 ≤ (s.co i).deadline)) &&
      s.dlq.all (fun i => decide (s.clock + 4000000000 ≤ (s.co i).deadline)) && decide (s.sco.yielders = []) && decide (s.sco.runners = []) && decide (s.sco.paused = [1]) &&
      decide (pending 1 s.log = some (.sleep 5000000000)))
    (by decide +kernel)
  simp only [Bool.and_eq_true, decide_eq_true_eq] at hp
  obtain ⟨⟨⟨⟨⟨⟨⟨h1, h2⟩, h3⟩, h4⟩, h5⟩, h6⟩, h7⟩, h8⟩ := hp
  have hl := spin_loop h1
  simp only [spins, Bool.and_eq_true, beq_iff_eq, Bool.not_eq_true', decide_eq_true_eq] at h1
  obtain ⟨⟨⟨⟨⟨⟨⟨⟨⟨⟨⟨⟨⟨⟨m1, m2⟩, _⟩, m4⟩, _⟩, _⟩, _⟩, _⟩, _⟩, _⟩, m11⟩, _⟩, _⟩, _⟩, _⟩ := h1
  have ht : Times s := times_of r m4 (by simp [h2, h3])
  obtain ⟨w, hw, _, _⟩ := C75_defined r m1 m2 m4 ht
  have hz : w = 0 := (hw.time r).2.1 (.inr (.inl ((sigPending_iff r).2 ⟨10, by simpa using List.find?_some m11⟩)))
  subst hz
  refine ⟨s, r, hw, ?_, ?_, ?_, run_cycle hl⟩
  · rintro j (h | h)
    · rw [h6] at h; cases h
    · rw [h5] at h; cases h
  · intro j hj hq
    unfold Blocked at hj; rw [h7] at hj
    simp at hj; subst hj
    rw [h8] at hq; cases hq
  · intro j dl hj
    obtain ⟨_, h, e⟩ := (due_iff r m4 j dl).1 hj
    have := of_decide_eq_true (List.all_eq_true.1 h4 j h)
    omega

/-! ## The theorems are not about nothing -/

/-- 1 sleeps until 300 ms and 2 waits for a descriptor until 120.5 ms, with the clock at 20 ms: 100 ms are asked for -/
def wtSome : List Sc := [.on 1 (.call .start), .on 2 (.call (.wait 7 false 120500000)), .on 1 (.call (.sleep 300000000)), .til (fun s => s.main == .top && s.sco.cur == none), .raw (.clock 20000000)]
def wtB (l : List Nat) (w : Int) (s : S) : Bool :=
  s.main == .io && s.sco.cur == none && !s.fault && decide (s.clock ≤ MAX) && s.dlq.all (fun i => decide (-MAX - 1 ≤ (s.co i).deadline)) && decide (s.dlq = l) && decide (kernelWait s = some w)
theorem wtB_waits {s : S} (r : Reach any s) {l : List Nat} {w : Int} (h : wtB l w s = true) : Waits s w ∧ s.dlq = l := by
  simp only [wtB, Bool.and_eq_true, beq_iff_eq, Bool.not_eq_true', decide_eq_true_eq] at h
  obtain ⟨⟨⟨⟨⟨⟨h1, h2⟩, h3⟩, h4⟩, h5⟩, h6⟩, h7⟩ := h
  exact ⟨⟨h1, h2, h3, times_of r h3 (by simp [h4, h5]), h7⟩, h6⟩

example : ∃ s, Reach any s ∧ Waits s 100000000 ∧ s.dlq = [2, 1] := by
  obtain ⟨s, r, h⟩ := scriptA wtSome (p := wtB [2, 1] 100000000) (by decide +kernel)
  exact ⟨s, r, wtB_waits r h⟩
/-- without the waiter the whole 280 ms are asked for -/
example : ∃ s, Reach any s ∧ Waits s 280000000 ∧ s.dlq = [1] := by
  obtain ⟨s, r, h⟩ := scriptA [.on 1 (.call (.sleep 300000000)), .til (fun s => s.main == .top && s.sco.cur == none), .raw (.clock 20000000)] (p := wtB [1] 280000000) (by decide +kernel)
  exact ⟨s, r, wtB_waits r h⟩
/-- somebody is ready, or somebody is in `neco_work`: nothing is asked for -/
example : ∃ s, Reach any s ∧ Waits s 0 ∧ s.dlq = [1] := by
  obtain ⟨s, r, h⟩ := scriptA [.on 1 (.call .start), .on 2 (.call .yield), .on 1 (.call (.sleep 300000000)), .on 2 (.call .yield)] (p := fun s => wtB [1] 0 s && decide (s.sco.yielders = [2])) (by decide +kernel)
  exact ⟨s, r, wtB_waits r (Bool.and_eq_true_iff.1 h).1⟩
example : ∃ s, Reach any s ∧ Waits s 0 ∧ s.dlq = [1] ∧ Blocked s 2 ∧ pending 2 s.log = some .work := by
  obtain ⟨s, r, h⟩ := scriptA [.on 1 (.call .start), .on 2 (.call .work), .raw (.submit true), .on 1 (.call (.sleep 300000000))]
    (p := fun s => wtB [1] 0 s && decide (2 ∈ s.sco.paused) && decide (pending 2 s.log = some .work)) (by decide +kernel)
  simp only [Bool.and_eq_true, decide_eq_true_eq] at h
  exact ⟨s, r, (wtB_waits r h.1.1).1, (wtB_waits r h.1.1).2, h.1.2, h.2⟩
/-- a watched signal is pending -/
example : ∃ s, Reach (StillWatched 10) s ∧ Waits s 0 ∧ delivered 10 s.log < arrived 10 s.log := by
  obtain ⟨s, r, h⟩ := scriptW (ok := StillWatched 10) (okB := stillB 10) (fun _ _ h => stillB_ok h) (a := false) (e := true) (l := spSome)
    (p := fun s => wtB [1] 0 s && decide (delivered 10 s.log < arrived 10 s.log)) (by decide +kernel)
  rw [Bool.and_eq_true, decide_eq_true_eq] at h
  exact ⟨s, r, (wtB_waits r.weaken h.1).1, h.2⟩

end Neco.Rt
