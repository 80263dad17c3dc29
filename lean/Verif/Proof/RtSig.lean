import Verif.Spec.Signal
import Verif.Proof.RtStats
/-!
# Signals
-/
namespace Neco.Rt
open Neco.Err

/-- what a step has to do with signals -/
inductive SigStep (s : S) (a : Act) (s' : S) : Prop
  | none (es : List Ev) (hl : s'.log = es ++ s.log) (hn : ∀ e ∈ es, e.kind ≠ .sig ∧ e.kind ≠ .sigTo) (hq : s'.sigqueue = s.sigqueue)
  | arrive (n : Nat) (ha : a = .signal n) (hl : s'.log = .sig n :: s.log)
      (hq : s'.sigqueue = if s.sigwatchers n = 0 then s.sigqueue else fun k => if k = n then s.sigqueue k + 1 else s.sigqueue k)
  | drop (n : Nat) (ha : a = .tau) (hc : s.sco.cur = Option.none) (hm : s.main = .sig) (h0 : s.sigqueue n ≠ 0) (hw : s.sigwatchers n = 0) (hl : s'.log = s.log)
      (hq : s'.sigqueue = fun k => if k = n then s.sigqueue k - 1 else s.sigqueue k)
  | deliver (n : Nat) (w : Node) (ha : a = .tau) (hc : s.sco.cur = Option.none) (hm : s.main = .sig) (h0 : s.sigqueue n ≠ 0) (hlow : ∀ m, m < n → s.sigqueue m = 0) (hw : s.sigwatchers n ≠ 0)
      (hf : (s.lists .sigQ).find? (fun w => (s.co w.owner).sigmask.testBit n) = some w) (hl : s'.log = .sigTo n w.owner :: s.log)
      (hq : s'.sigqueue = fun k => if k = n then s.sigqueue k - 1 else s.sigqueue k) (hco : ∀ j, s'.co j = if j = w.owner then { s.co j with sigmask := n } else s.co j)
      (hsco : s'.sco = s.sco.resume w.owner) (hmn : s'.main = .dl)

theorem doCall_sigqueue (s : S) (i : Nat) (c : Call) : (doCall s i c).sigqueue = s.sigqueue := by
  cases c <;> simp only [doCall] <;> (repeat' split) <;> simp
theorem afterBlk_sigqueue (s : S) (i : Nat) (b : Blk) : (afterBlk s i b).sigqueue = s.sigqueue := by
  cases b <;> simp only [afterBlk] <;> (repeat' split) <;> simp
theorem tauCo_sigqueue {s s' : S} {i : Nat} (hs : tauCo s i = some s') : s'.sigqueue = s.sigqueue := by
  unfold tauCo at hs
  split at hs <;> (repeat' split at hs) <;> cases hs <;> simp [afterBlk_sigqueue]

theorem find_low {f : Nat → Bool} {n m : Nat} (h : (List.range n).find? f = some m) : f m = true ∧ ∀ k, k < m → f k = false := by
  induction n with
  | zero => cases h
  | succ n ih =>
    rw [List.range_succ, List.find?_append] at h
    cases h1 : (List.range n).find? f with
    | some x => rw [h1] at h; simp at h; subst h; exact ih h1
    | none =>
      rw [h1] at h
      simp [List.find?_cons] at h
      split at h
      · rename_i h2; cases h
        refine ⟨h2, fun k hk => ?_⟩
        have := List.find?_eq_none.mp h1 k (by simpa using hk)
        simpa using this
      · cases h

theorem step_sig {s s' : S} {a : Act} (hs : step s a = some s') : SigStep s a s' := by
  have hadd := step_adds hs
  have byKind : (∀ k ∈ stepKinds s a, k ≠ .sig ∧ k ≠ .sigTo) → s'.sigqueue = s.sigqueue → SigStep s a s' := by
    intro h hq
    obtain ⟨es, h1, h2⟩ := hadd
    exact .none es h1 (fun e he => h _ (h2 e he)) hq
  unfold step at hs
  split at hs
  · cases hs
  cases a with
  | call c =>
    simp only at hs
    split at hs
    · cases hs
    split at hs <;> cases hs
    refine byKind ?_ (doCall_sigqueue ..)
    intro k hk
    cases c <;> simp [stepKinds, callKinds] at hk <;> (try subst hk) <;> first | (simp; done) | (rcases hk with rfl | rfl | rfl <;> simp) | (rcases hk with rfl | rfl <;> simp)
  | finish => simp only at hs; (repeat' split at hs) <;> cases hs; exact byKind (by simp [stepKinds]) (by simp)
  | tau =>
    simp only at hs
    split at hs
    · rename_i i hc
      refine byKind ?_ (tauCo_sigqueue hs)
      intro k hk
      simp only [stepKinds, hc] at hk
      unfold pcKinds at hk
      (repeat' split at hk) <;> simp at hk <;> (try subst hk) <;> first | (simp; done) | (rcases hk with rfl | rfl | rfl <;> simp) | (rcases hk with rfl | rfl <;> simp)
    · rename_i hc
      by_cases hm : s.main = .sig
      · unfold tauMain at hs
        rw [hm] at hs
        simp only [Option.some.injEq] at hs
        subst hs
        unfold mSig
        split
        · exact .none [] rfl (by simp) rfl
        · rename_i n hn
          obtain ⟨h1, h2⟩ := find_low hn
          split
          · rename_i hw
            exact .drop n rfl hc hm (by simpa using h1) hw rfl rfl
          · rename_i hw
            split
            · exact .none [] rfl (by simp) rfl
            · rename_i w hf
              exact .deliver n w rfl hc hm (by simpa using h1) (fun m hm => by simpa using h2 m hm) hw hf rfl rfl (fun j => by simp only [scoResume, note, upd]; split <;> simp_all) rfl rfl
      · refine byKind ?_ ?_
        · intro k hk
          simp only [stepKinds, hc] at hk
          unfold mainKinds at hk
          split at hk <;> simp at hk <;> first | (subst hk; simp; done) | (exact absurd ‹_› hm)
        · unfold tauMain at hs
          (repeat' split at hs) <;> cases hs <;> first | (simp; done) | (exact absurd ‹_› hm)
  | submit ok => simp only at hs; (repeat' split at hs) <;> cases hs <;> exact byKind (by simp [stepKinds]) (by simp)
  | events evs =>
    simp only at hs
    split at hs <;> cases hs
    refine byKind (by simp [stepKinds]) ?_
    split <;> simp
  | clock t => simp only at hs; split at hs <;> cases hs; exact byKind (by simp [stepKinds]) rfl
  | signal n =>
    simp only at hs; (repeat' split at hs) <;> cases hs
    · exact .arrive n rfl rfl (by rw [if_pos ‹_›]; rfl)
    · exact .arrive n rfl rfl (by rw [if_neg ‹_›])
  | wdone i => simp only at hs; (repeat' split at hs) <;> cases hs; exact byKind (by simp [stepKinds]) rfl

/-! ## Counting -/

theorem arrived_append (n : Nat) (a b : List Ev) : arrived n (a ++ b) = arrived n a + arrived n b := by unfold arrived; simp
theorem delivered_append (n : Nat) (a b : List Ev) : delivered n (a ++ b) = delivered n a + delivered n b := by unfold delivered; simp
theorem quiet_arrived {n : Nat} {es : List Ev} (h : ∀ e ∈ es, e.kind ≠ .sig ∧ e.kind ≠ .sigTo) : arrived n es = 0 ∧ delivered n es = 0 := by
  constructor
  · unfold arrived; rw [List.countP_eq_zero]; intro e he e2; simp at e2; subst e2; exact (h _ he).1 rfl
  · unfold delivered; rw [List.countP_eq_zero]; intro e he e2
    cases e <;> simp [isSigTo] at e2
    exact (h _ he).2 rfl

theorem sig_le {ok} {s : S} (r : Reach ok s) (n : Nat) : delivered n s.log + s.sigqueue n ≤ arrived n s.log := by
  induction r with
  | init a e => simp [init, delivered, arrived, isSigTo]
  | @step s s' r a hok hs ih =>
    cases step_sig hs with
    | none es hl hn hq =>
      rw [hl, hq, arrived_append, delivered_append, (quiet_arrived hn).1, (quiet_arrived hn).2]; omega
    | arrive m ha hl hq =>
      rw [hl, hq]
      have h1 : delivered n (.sig m :: s.log) = delivered n s.log := by unfold delivered; simp [isSigTo]
      have h2 : arrived n (.sig m :: s.log) = arrived n s.log + if m = n then 1 else 0 := by unfold arrived; rw [List.countP_cons]; simp
      rw [h1, h2]
      by_cases hz : s.sigwatchers m = 0
      · rw [if_pos hz]; split <;> omega
      · rw [if_neg hz]; by_cases e : m = n
        · subst e; simp only [if_true]; omega
        · simp only [if_neg e, if_neg (Ne.symm e)]; omega
    | drop m ha hc hm h0 hw hl hq => rw [hl, hq]; simp only; split <;> omega
    | deliver m w ha hc hm h0 hlow hw hf hl hq =>
      rw [hl, hq]
      have h1 : delivered n (.sigTo m w.owner :: s.log) = delivered n s.log + if m = n then 1 else 0 := by unfold delivered; rw [List.countP_cons]; simp [isSigTo]
      have h2 : arrived n (.sigTo m w.owner :: s.log) = arrived n s.log := by unfold arrived; simp
      rw [h1, h2]
      by_cases e : m = n
      · subst e; simp only [if_true]; omega
      · simp only [if_neg e, if_neg (Ne.symm e)]; omega

theorem sig_eq {ok} {s : S} {n : Nat} (hk : ∀ s a, Reach ok s → ok s a → a = .signal n ∨ 0 < s.sigqueue n → s.sigwatchers n ≠ 0) (r : Reach ok s) :
    arrived n s.log = delivered n s.log + s.sigqueue n := by
  induction r with
  | init a e => simp [init, delivered, arrived, isSigTo]
  | @step s s' r a hok hs ih =>
    cases step_sig hs with
    | none es hl hn hq =>
      rw [hl, hq, arrived_append, delivered_append, (quiet_arrived hn).1, (quiet_arrived hn).2]; omega
    | arrive m ha hl hq =>
      rw [hl, hq]
      have h1 : delivered n (.sig m :: s.log) = delivered n s.log := by unfold delivered; simp [isSigTo]
      have h2 : arrived n (.sig m :: s.log) = arrived n s.log + if m = n then 1 else 0 := by unfold arrived; rw [List.countP_cons]; simp
      rw [h1, h2]
      by_cases e : m = n
      · subst e
        rw [if_neg (hk _ _ r hok (.inl ha))]; simp; omega
      · by_cases hz : s.sigwatchers m = 0
        · rw [if_pos hz, if_neg e]; omega
        · rw [if_neg hz]; simp only [if_neg e, if_neg (Ne.symm e)]; omega
    | drop m ha hc hm h0 hw hl hq =>
      rw [hl, hq]
      by_cases e : m = n
      · subst e; exact absurd hw (hk _ _ r hok (.inr (by omega)))
      · simp only [if_neg (Ne.symm e)]; exact ih
    | deliver m w ha hc hm h0 hlow hw hf hl hq =>
      rw [hl, hq]
      have h1 : delivered n (.sigTo m w.owner :: s.log) = delivered n s.log + if m = n then 1 else 0 := by unfold delivered; rw [List.countP_cons]; simp [isSigTo]
      have h2 : arrived n (.sigTo m w.owner :: s.log) = arrived n s.log := by unfold arrived; simp
      rw [h1, h2]
      by_cases e : m = n
      · subst e; simp only [if_true]; omega
      · simp only [if_neg e, if_neg (Ne.symm e)]; omega

/-! ## Who is made ready when -/

theorem switch_yielders {x : Sco} {b : Bool} {k : Nat} (h : k ∈ (x.switch b).yielders) : k ∈ x.yielders := by
  unfold Sco.switch Sco.toMain Sco.promote Sco.dispatch at h
  (repeat' split at h) <;> first | exact h | (simp at h; done)

theorem CoSco.yielders {x y : Sco} (h : CoSco x y) {k : Nat} (hk : k ∈ y.yielders) : k ∈ x.yielders ∨ x.cur = some k ∨ k ∈ x.paused := by
  have yl : ∀ {x : Sco}, k ∈ x.yield.yielders → k ∈ x.yielders ∨ x.cur = some k := by
    intro x h
    unfold Sco.yield at h
    split at h
    · rename_i c hc
      have := switch_yielders h
      simp at this
      rcases this with h | h
      · exact .inl h
      · right; rw [hc, h]
    · exact .inl h
  cases h with
  | refl => exact .inl hk
  | yield => rcases yl hk with h | h; exact .inl h; exact .inr (.inl h)
  | pause =>
    unfold Sco.pause at hk
    split at hk
    · exact .inl (switch_yielders (x := { x with paused := _ :: x.paused, npaused := _ }) hk)
    · exact .inl hk
  | resume id =>
    unfold Sco.resume at hk
    split at hk
    · rename_i hid
      rcases yl hk with h | h
      · simp [Sco.wake] at h
        rcases h with h | h
        · exact .inl h
        · exact .inr (.inr (h ▸ hid))
      · exact .inr (.inl h)
    · exact .inl hk
  | start => unfold Sco.start at hk; simp only at hk; split at hk <;> exact .inl hk
  | finish => unfold Sco.finish at hk; exact .inl (switch_yielders (x := { x with done := _, cur := none }) hk)
  | exit => unfold Sco.exit at hk; exact .inl (switch_yielders (x := { x with done := _, cur := none, exitReq := true }) hk)

theorem resume_yielders {x : Sco} (h : x.cur = none) {id k : Nat} (hk : k ∈ (x.resume id).yielders) : k ∈ x.yielders ∨ k ∈ x.paused := by
  rw [resume_main h] at hk
  split at hk
  · rename_i hid
    simp [Sco.wake] at hk
    rcases hk with h | h
    · exact .inl h
    · exact .inr (h ▸ hid)
  · exact .inl hk

theorem wakeAll_yielders {s : S} (h : s.sco.cur = none) {q : List Nat} {k : Nat} (hk : k ∈ (wakeAll s q).sco.yielders) : k ∈ s.sco.yielders ∨ k ∈ s.sco.paused := by
  induction q generalizing s with
  | nil => exact .inl hk
  | cons i q ih =>
    rcases ih (s := scoResume s i) (resume_main_cur h i) hk with h1 | h1
    · exact resume_yielders h h1
    · exact .inr (mem_resume.mp h1).1

theorem mEvents_yielders {s : S} (h : s.sco.cur = none) {q : List (Nat × Bool × Bool)} {k : Nat} (hk : k ∈ (mEvents s q).sco.yielders) : k ∈ s.sco.yielders ∨ k ∈ s.sco.paused := by
  induction q generalizing s with
  | nil => exact .inl hk
  | cons e q ih =>
    simp only [mEvents] at hk
    have hc : (mEvent s e).sco.cur = none := by unfold mEvent; exact wakeAll_cur (by exact h) _
    rcases ih (s := mEvent s e) hc hk with h1 | h1
    · unfold mEvent at h1; dsimp only at h1; rcases wakeAll_yielders (by exact h) h1 with h2 | h2
      · exact .inl h2
      · exact .inr h2
    · unfold mEvent at h1; dsimp only at h1; exact .inr (mem_wakeAll.mp h1).1

theorem switch_exitReq {x : Sco} {b : Bool} (h : (x.switch b).cur = none) (hb : (x.switch b).bad = false) : (x.switch b).exitReq = false := by
  unfold Sco.switch Sco.toMain Sco.promote Sco.dispatch at *
  (repeat' split at h) <;> simp_all

/-- in the main context no return to it is requested -/
theorem reach_exitReq {x : Sco} (h : Sco.Reach x) : x.cur = none → x.exitReq = false := by
  obtain ⟨ops, h⟩ := h
  induction h with
  | nil => intro _; rfl
  | snoc h o e ih =>
    rename_i x
    have hw := Sco.step_wf (Sco.reach_wf ⟨_, h⟩) o e
    have hb := hw.bad
    intro hc
    have yl : ∀ (y : Sco), (y.yield).cur = none → y.yield.bad = false → (y.cur = none → y.exitReq = false) → y.yield.exitReq = false := by
      intro y h1 h2 h3
      unfold Sco.yield at *
      split at h1
      · rename_i c hc
        split at h2
        · rename_i c' hc'; cases hc.symm.trans hc'
          exact switch_exitReq h1 h2
        · rename_i hc'; cases hc.symm.trans hc'
      · exact h3 (by assumption)
    cases o with
    | start => simp only [Sco.step, Sco.start] at hc; split at hc <;> cases hc
    | mainStart => simp only [Sco.step, Sco.start] at hc; split at hc <;> cases hc
    | yield => exact yl x hc hb ih
    | pause =>
      simp only [Sco.step] at *
      unfold Sco.pause at *
      split at hc
      · rename_i c hc0
        split at hb
        · rename_i c' hc'; cases hc0.symm.trans hc'
          exact switch_exitReq hc hb
        · rename_i hc'; cases hc0.symm.trans hc'
      · exact ih (by assumption)
    | resume id =>
      simp only [Sco.step] at *
      unfold Sco.resume at *
      split at hc
      · rename_i hi; rw [if_pos hi] at hb ⊢; exact yl _ hc hb ih
      · rename_i hi; rw [if_neg hi]; exact ih hc
    | mainResume id =>
      simp only [Sco.step] at *
      unfold Sco.resume at *
      split at hc
      · rename_i hi; rw [if_pos hi] at hb ⊢; exact yl _ hc hb ih
      · rename_i hi; rw [if_neg hi]; exact ih hc
    | finish => exact switch_exitReq hc hb
    | exit => exact switch_exitReq hc hb
    | mainNext => exact switch_exitReq hc hb

/-- when the main loop lets coroutines run, all that were made ready are taken -/
theorem resume0_yielders {x : Sco} (hw : Sco.WF x) (hc : x.cur = none) (he : x.exitReq = false) : x.resume0.yielders = [] := by
  unfold Sco.resume0 Sco.switch
  have hr := hw.main hc
  rw [if_pos (by rw [hw.nr, hr]; rfl), he]
  split
  · rename_i h
    rcases h with h | h | h
    · have : x.yielders.length = 0 := by rw [← hw.ny, h]
      exact List.eq_nil_of_length_eq_zero this
    · cases h
    · cases h.1
  · unfold Sco.promote Sco.dispatch; simp only; split <;> rfl

/-! ## Each wait gets one signal at most -/

/-- coroutine `j` was handed a signal during its present call -/
def Told (j : Nat) (s : S) : Prop := ∃ n, .sigTo n j ∈ since j s.log

structure InvSg (j : Nat) (s : S) : Prop where
  /-- until it is handed a signal, it waits for those it watches -/
  wt : (s.co j).pc = .blk .sig → ¬ Told j s → (s.co j).sigmask = (s.co j).sigwatch
  /-- once it is handed a signal it runs before the main loop looks at signals again -/
  rd : (s.co j).pc = .blk .sig → Told j s → j ∉ s.sco.paused ∧ (j ∈ s.sco.yielders → s.sco.cur = none ∧ (s.main = .dl ∨ s.main = .rc ∨ s.main = .go))

theorem tauCo_sigPc {s s' : S} {i : Nat} (hs : tauCo s i = some s') : (s'.co i).pc ≠ .blk .sig := by
  intro hp
  unfold tauCo at hs
  split at hs
  · cases hs
  · cases hs
  · cases hs
  · cases hs; unfold doRet at hp; split at hp
    · rw [pc_setPc] at hp; cases hp
    · simp [upd_co] at hp
  · (repeat' split at hs) <;> cases hs
    · rw [pc_setPc] at hp; cases hp
    · rw [pc_setPc] at hp; cases hp
    · rw [pc_coyield] at hp; cases hp
  · cases hs; rw [pc_coyield] at hp; cases hp
  · rename_i a e; cases hs
    cases a with
    | ret v => simp only [doAft] at hp; rw [pc_retv] at hp; cases hp
    | condEnq =>
      simp only [doAft] at hp
      split at hp
      · unfold cvEnq at hp; dsimp only at hp; rw [pc_copause] at hp; cases hp
      · simp only [e] at hp; cases hp
    | genRel x y => 
      simp only [doAft] at hp; split at hp
      · rw [pc_setPc] at hp; cases hp
      · simp only [e] at hp; cases hp
    | exitTail x y =>
      simp only [doAft] at hp; split at hp
      · rw [(pc_yfsr ..).choose_spec] at hp; cases hp
      · rw [pc_setPc] at hp; cases hp
    | fin x => simp only [doAft, doFin] at hp; rw [pc_setPc] at hp; cases hp
  · cases hs; rw [pc_retv] at hp; cases hp
  · rename_i b' e; cases hs
    cases b' <;> simp only [afterBlk] at hp <;> (repeat' split at hp) <;> first
      | (rw [pc_retv] at hp; cases hp; done) | (rw [pc_setPc] at hp; cases hp; done)
  · rename_i e; split at hs <;> cases hs
    · unfold doCancel at hp; dsimp only at hp; (repeat' split at hp)
      · rw [pc_retv] at hp; cases hp
      · rw [pc_retv] at hp; cases hp
      · rw [pc_scoResume, pc_setPc] at hp; cases hp
      · rw [pc_copause] at hp; cases hp
    · simp only [e] at hp; cases hp
  · rename_i e; split at hs <;> cases hs
    · unfold doRelock at hp; (repeat' split at hp)
      · rw [pc_retv] at hp; cases hp
      · rw [pc_setPc] at hp; cases hp
      · rw [pc_setPc] at hp; cases hp
      · unfold finishLock at hp; dsimp only at hp; rw [pc_copause] at hp; cases hp
    · simp only [e] at hp; cases hp
  · cases hs; rw [pc_retv] at hp; cases hp
  · rename_i a e
    have hx := tauCo_exiting (s := s) (s' := s') (i := i) (by unfold tauCo; rw [e]; exact hs) (by rw [e]; rfl)
    rw [hp] at hx; cases hx

theorem Mvs.pausedLe {j : Nat} {s t : S} (h : Mvs j s t) : j ∈ t.sco.paused → j ∈ s.sco.paused := by
  induction h with
  | refl => exact id
  | head a _ ih =>
    intro h
    have h := ih h
    cases a
    case wdone co _ pz _ _ _ _ _ => exact pz.mp h
    all_goals (rename_i d; exact (d.pz.mp h).1)

theorem Mvs.sigmask {j : Nat} {s t : S} (h : Mvs j s t) : ∃ es, lg j t = es ++ lg j s ∧ ((∃ n, .sigTo n j ∈ es) ∨ (t.co j).sigmask = (s.co j).sigmask) := by
  induction h with
  | refl => exact ⟨[], rfl, .inr rfl⟩
  | head a _ ih =>
    obtain ⟨es, h1, h2⟩ := ih
    cases a
    case wdone co _ pz _ _ _ log _ => 
      refine ⟨es ++ (_ :: leave _ j), by rw [h1, log]; simp; exact ⟨rfl, rfl⟩, ?_⟩
      rcases h2 with ⟨n, h2⟩ | h2
      · exact .inl ⟨n, by simp [h2]⟩
      · exact .inr (by rw [h2, co])
    case sigTo n hn hm d => exact ⟨es ++ [.sigTo n j], by rw [h1, d.log]; simp, .inl ⟨n, by simp⟩⟩
    all_goals
      rename_i d
      refine ⟨es ++ _, by rw [h1, d.log]; rw [List.append_assoc], ?_⟩
      rcases h2 with ⟨n, h2⟩ | h2
      · exact .inl ⟨n, by simp [h2]⟩
      · exact .inr (by rw [h2, d.co]; try rfl)

theorem Mvs.sigwatch {j : Nat} {s t : S} (h : Mvs j s t) : (t.co j).sigwatch = (s.co j).sigwatch := by
  induction h with
  | refl => rfl
  | head a _ ih =>
    rw [ih]
    cases a
    case wdone co _ _ _ _ _ _ _ => rw [co]
    all_goals (rename_i d; rw [d.co]; try rfl)

/-- what one step changes about who is ready -/
theorem step_yielders {s s' : S} {a : Act} (hw : Sco.WF s.sco) (hx : s.sco.cur = none → s.sco.exitReq = false) (hs : step s a = some s') {j : Nat} (hj : j ∈ s'.sco.yielders) :
    s.sco.cur = some j ∨ (s.sco.cur = none ∧ s'.sco.cur = none ∧ (s'.main = .dl ∨ s'.main = .rc ∨ s'.main = .go)) ∨ 
    ((j ∈ s.sco.yielders ∨ j ∈ s.sco.paused) ∧ (s.main = .dl ∨ s.main = .rc ∨ s.main = .go → s.sco.cur = none → s'.sco.cur = none ∧ s'.main = s.main)) := by
  have co : ∀ {i}, s.sco.cur = some i → CoSco s.sco s'.sco → s.sco.cur = some j ∨ ((j ∈ s.sco.yielders ∨ j ∈ s.sco.paused) ∧ (s.main = .dl ∨ s.main = .rc ∨ s.main = .go → s.sco.cur = none → s'.sco.cur = none ∧ s'.main = s.main)) := by
    intro i hc h
    have hn : s.main = .dl ∨ s.main = .rc ∨ s.main = .go → s.sco.cur = none → s'.sco.cur = none ∧ s'.main = s.main := by intro _ h; rw [hc] at h; cases h
    rcases h.yielders hj with h | h | h
    · exact .inr ⟨.inl h, hn⟩
    · exact .inl h
    · exact .inr ⟨.inr h, hn⟩
  have same : s'.sco = s.sco → s'.main = s.main → (j ∈ s.sco.yielders ∨ j ∈ s.sco.paused) ∧ (s.main = .dl ∨ s.main = .rc ∨ s.main = .go → s.sco.cur = none → s'.sco.cur = none ∧ s'.main = s.main) := by
    intro h1 h2
    exact ⟨.inl (h1 ▸ hj), fun _ h => ⟨h1 ▸ h, h2⟩⟩
  have noM : ∀ {m}, s.main = m → m ≠ .dl → m ≠ .rc → m ≠ .go → s.main = .dl ∨ s.main = .rc ∨ s.main = .go → s.sco.cur = none → s'.sco.cur = none ∧ s'.main = s.main := by
    intro m h h1 h2 h3 h4 _
    rcases h4 with h4 | h4 | h4 <;> rw [h] at h4 <;> contradiction
  have lift : ∀ {P Q R : Prop}, P ∨ R → P ∨ Q ∨ R := fun h => h.elim .inl (fun h => .inr (.inr h))
  unfold step at hs
  split at hs
  · cases hs
  cases a with
  | call c =>
    simp only at hs; (repeat' split at hs) <;> cases hs
    rename_i i hc _
    exact lift (co hc (doCall_cs (callSt s i c) i c))
  | finish =>
    simp only at hs; (repeat' split at hs) <;> cases hs
    exact .inr (.inr (same rfl rfl))
  | tau =>
    simp only at hs
    split at hs
    · rename_i i hc; exact lift (co hc (tauCo_cs hs))
    · rename_i hc
      unfold tauMain at hs
      split at hs
      · rename_i hm
        (repeat' split at hs) <;> cases hs
        · exact .inr (.inr ⟨.inl hj, noM hm (by simp) (by simp) (by simp)⟩)
        · refine .inr (.inr ⟨?_, noM hm (by simp) (by simp) (by simp)⟩)
          unfold mResume at hj; simp only at hj
          exact (wakeAll_yielders (by exact hc) hj).elim .inl .inr
        · exact .inr (.inl ⟨hc, hc, .inr (.inl rfl)⟩)
      · rename_i hm; cases hs
        refine .inr (.inr ⟨?_, noM hm (by simp) (by simp) (by simp)⟩)
        unfold mIo at hj; simp only at hj
        split at hj
        · exact (wakeAll_yielders (by exact hc) hj).elim .inl .inr
        · exact .inl hj
      · cases hs
      · rename_i hm; cases hs
        refine .inr (.inl ⟨hc, ?_, .inl rfl⟩)
        unfold mSig
        (repeat' split) <;> first | exact hc | exact resume_main_cur (by exact hc) _
      · rename_i hm; cases hs
        refine .inr (.inl ⟨hc, ?_, .inr (.inl rfl)⟩)
        unfold mDl; exact wakeAll_cur (by exact hc) _
      · cases hs; exact .inr (.inl ⟨hc, hc, .inr (.inr rfl)⟩)
      · cases hs; simp only at hj; rw [resume0_yielders hw hc (hx hc)] at hj; cases hj
      · cases hs
  | submit ok =>
    simp only at hs; (repeat' split at hs) <;> cases hs
    · rename_i i hc _ _; exact lift (co hc .pause)
    · rename_i i hc _ _; exact lift (co hc .yield)
  | events evs =>
    simp only at hs
    split at hs <;> cases hs
    rename_i h
    refine .inr (.inr ⟨?_, noM h.2.1 (by simp) (by simp) (by simp)⟩)
    simp only at hj
    split at hj
    · exact mEvents_yielders h.1 hj
    · exact .inl hj
  | clock t => simp only at hs; split at hs <;> cases hs; exact .inr (.inr (same rfl rfl))
  | signal n => simp only at hs; (repeat' split at hs) <;> cases hs <;> exact .inr (.inr (same rfl rfl))
  | wdone i => simp only at hs; (repeat' split at hs) <;> cases hs; exact .inr (.inr (same (by simp) (by simp)))

theorem doCall_sigPc {s : S} {i : Nat} {c : Call} (h : ∃ dl, c = .sigWait dl) (hp : ((doCall s i c).co i).pc = .blk .sig) : ((doCall s i c).co i).sigmask = ((doCall s i c).co i).sigwatch := by
  obtain ⟨dl, rfl⟩ := h
  simp only [doCall, doSigWait] at hp ⊢
  (repeat' split at hp)
  · rw [pc_retv] at hp; cases hp
  · rw [pc_retv] at hp; cases hp
  · rename_i h1 h2; rw [if_neg h1, if_neg h2]
    rw [copause_co, if_pos rfl]; split <;> simp [push, upd_co]

theorem reach_invSg {ok} {s : S} (r : Reach ok s) (hf : s.fault = false) (j : Nat) : InvSg j s := by
  induction r with
  | init a e =>
    have : ((init a e).co j).pc = .user := by unfold init; dsimp only; split <;> rfl
    exact ⟨fun h => by (rw [this] at h; cases h), fun h => by (rw [this] at h; cases h)⟩
  | @step s s' r a hok hs ih =>
    have hf0 := step_nofault hs
    have ih := ih hf0
    have hw := reach_scoWF r
    have hx := reach_exitReq (reach_sco r)
    have same : s'.co j = s.co j → (∃ es, s'.log = es ++ s.log ∧ ∀ e ∈ es, isCallOf j e = false ∧ e.kind ≠ .sigTo) → s'.sco = s.sco → s'.main = s.main → InvSg j s' := by
      intro h1 ⟨es, h2, h3⟩ h4 h5
      have ht : Told j s' ↔ Told j s := by
        unfold Told; rw [h2, since_ext (fun e he => (h3 e he).1)]
        constructor
        · intro ⟨n, h⟩; rcases List.mem_append.mp h with h | h
          · exact absurd rfl (h3 _ h).2
          · exact ⟨n, h⟩
        · intro ⟨n, h⟩; exact ⟨n, List.mem_append_right _ h⟩
      refine ⟨fun hp hn => ?_, fun hp hn => ?_⟩
      · rw [h1] at hp ⊢; exact ih.wt hp (fun h => hn (ht.mpr h))
      · rw [h1] at hp; rw [h4, h5]; exact ih.rd hp (ht.mp hn)
    by_cases hj : s.sco.cur = some j
    · -- a step while `j` is running
      cases a with
      | call c =>
        obtain ⟨hu, hcn, e⟩ := step_call_of hs hj
        have hcall : (s'.co j).pc = .blk .sig → ∃ dl, c = .sigWait dl := by
          intro hp
          have hft := (reach_invN (.step r _ hok hs) hf j).ft
          unfold fits at hft; rw [hp] at hft
          obtain ⟨dl, hft⟩ := hft
          have hcc : (s'.co j).call = c := by rw [e, doCall_call (s := callSt s j c) c (cur_le hw hj).2]; simp [callSt, upd_co]
          rw [hcc] at hft
          cases c <;> simp [BlkC] at hft
          exact ⟨_, rfl⟩
        obtain ⟨fs, h1, h2⟩ := call_log hs hj
        refine ⟨fun hp _ => ?_, fun hp ht => ?_⟩
        · rw [e] at hp ⊢; rw [e] at hcall; exact doCall_sigPc (hcall hp) hp
        · exfalso
          obtain ⟨dl, rfl⟩ := hcall hp
          obtain ⟨n, hn⟩ := ht
          have hq : ∀ e ∈ fs, isCallOf j e = false := by
            intro e he; have := h2 e he; simp [callKinds] at this
          rw [h1, since_app hq] at hn
          have := h2 _ hn; simp [callKinds] at this
      | finish =>
        unfold step at hs; split at hs; · cases hs
        simp only [hj] at hs; split at hs <;> cases hs
        exact ⟨fun hp => by (rw [pc_setPc] at hp; cases hp), fun hp => by (rw [pc_setPc] at hp; cases hp)⟩
      | tau =>
        have ht : tauCo s j = some s' := by unfold step at hs; split at hs; · cases hs
                                            · simpa [hj] using hs
        exact ⟨fun hp => absurd hp (tauCo_sigPc ht), fun hp => absurd hp (tauCo_sigPc ht)⟩
      | submit ok =>
        unfold step at hs; split at hs; · cases hs
        simp only [hj] at hs; split at hs
        · rename_i hpc
          split at hs <;> cases hs
          · exact ⟨fun hp => by (simp only at hp; rw [pc_setPc] at hp; cases hp), fun hp => by (simp only at hp; rw [pc_setPc] at hp; cases hp)⟩
          · exact ⟨fun hp => by (simp only [hpc] at hp; cases hp), fun hp => by (simp only [hpc] at hp; cases hp)⟩
        · cases hs
      | events evs => unfold step at hs; split at hs; · cases hs
                      simp [hj] at hs
      | clock t => unfold step at hs; split at hs; · cases hs
                   simp only at hs; split at hs <;> cases hs; exact same rfl ⟨[], rfl, by simp⟩ rfl rfl
      | signal n => unfold step at hs; split at hs; · cases hs
                    simp only at hs; (repeat' split at hs) <;> cases hs <;> exact same rfl ⟨[.sig n], rfl, by simp [isCallOf, Ev.kind]⟩ rfl rfl
      | wdone k => unfold step at hs; split at hs; · cases hs
                   simp only at hs; (repeat' split at hs) <;> cases hs; exact same (by simp) ⟨.wdone k :: leave s k, rfl, fun e he => by
                     rcases List.mem_cons.mp he with rfl | he
                     · simp [isCallOf, Ev.kind]
                     · obtain ⟨c, rfl, _⟩ := mem_leave he; simp [isCallOf, Ev.kind]⟩ (by simp) (by simp)
    · by_cases hn : a = .call .start ∨ a = .call .genStart → j ≠ s.sco.nextId + 1
      · have mv := step_other (reach_invL r) (reach_invC r) hs hj hn (((reach_invF r).cf j).evU)
        have hpc := mv.pc.1
        obtain ⟨es, hes, hnc⟩ := step_noCall hs (j := j) (fun _ _ => hj)
        have key : (s.co j).pc = .blk .sig → Told j s → j ∉ s'.sco.paused ∧ (j ∈ s'.sco.yielders → s'.sco.cur = none ∧ (s'.main = .dl ∨ s'.main = .rc ∨ s'.main = .go)) := by
          intro hp ht
          obtain ⟨h1, h2⟩ := ih.rd hp ht
          refine ⟨fun h => h1 (mv.pausedLe h), fun h => ?_⟩
          rcases step_yielders hw hx hs h with h | h | ⟨h, h3⟩
          · exact absurd h hj
          · exact h.2
          · rcases h with h | h
            · obtain ⟨h4, h5⟩ := h2 h
              obtain ⟨h6, h7⟩ := h3 h5 h4
              exact ⟨h6, h7 ▸ h5⟩
            · exact absurd h h1
        have quiet : (∀ n, .sigTo n j ∉ es) → InvSg j s' := by
          intro hq
          have ht : Told j s' ↔ Told j s := by
            unfold Told; rw [hes, since_ext hnc]
            constructor
            · intro ⟨n, h⟩; rcases List.mem_append.mp h with h | h
              · exact absurd h (hq n)
              · exact ⟨n, h⟩
            · intro ⟨n, h⟩; exact ⟨n, List.mem_append_right _ h⟩
          refine ⟨fun hp hnt => ?_, fun hp h => key (hpc ▸ hp) (ht.mp h)⟩
          obtain ⟨fs, h1, h2⟩ := mv.sigmask
          rcases h2 with ⟨n, h2⟩ | h2
          · have h3 : lg j s' = es.filter (Ev.about j) ++ lg j s := by unfold lg; rw [hes, List.filter_append]
            rw [h1] at h3
            rw [List.append_cancel_right h3] at h2
            exact absurd (List.mem_filter.mp h2).1 (hq n)
          · rw [h2, mv.sigwatch]; exact ih.wt (hpc ▸ hp) (fun h => hnt (ht.mpr h))
        cases step_sig hs with
        | none es' hl hn' hq =>
          rw [hes] at hl; have := List.append_cancel_right hl; subst this
          exact quiet (fun n h => (hn' _ h).2 rfl)
        | arrive n ha hl hq =>
          rw [hes] at hl; have := List.append_cancel_right (as := es) (cs := [.sig n]) hl; subst this
          exact quiet (fun n h => by simp at h)
        | drop n ha hc hm h0 hw' hl hq =>
          rw [hes] at hl; have := List.append_cancel_right (as := es) (cs := []) hl; subst this
          exact quiet (fun n h => by simp at h)
        | deliver n w ha hc hm h0 hlow hw' hfd hl hq hco hsco hmn =>
          rw [hes] at hl; have := List.append_cancel_right (as := es) (cs := [.sigTo n w.owner]) hl; subst this
          by_cases hwj : w.owner = j
          · subst hwj
            refine ⟨fun _ h => absurd ⟨n, by rw [hes, since_ext hnc]; simp⟩ h, fun _ _ => ⟨?_, fun _ => ⟨?_, .inl hmn⟩⟩⟩
            · rw [hsco]; intro h; exact (mem_resume.mp h).2 rfl
            · rw [hsco]; exact resume_main_cur hc _
          · exact quiet (fun m h => by simp at h; exact hwj h.2.symm)
      · have hn : (a = .call .start ∨ a = .call .genStart) ∧ j = s.sco.nextId + 1 := by
          by_cases h : a = .call .start ∨ a = .call .genStart
          · exact ⟨h, Classical.byContradiction (fun h2 => hn (fun _ => h2))⟩
          · exact absurd (fun h' => absurd h' h) hn
        obtain ⟨i, g, _, hco, _⟩ := start_new hn.1 hs
        have hpn : (s'.co j).pc = .user := by rw [hn.2, hco]; exact (newCo_pc ..).1
        exact ⟨fun hp => by (rw [hpn] at hp; cases hp), fun hp => by (rw [hpn] at hp; cases hp)⟩

end Neco.Rt
