import Verif.Proof.RtMsg5
import Verif.Proof.RtFrom
/-!
# Closing channels
-/
namespace Neco.Rt
open Neco.Err

/-- channels of `s` in `s'`: same capacity, what was closed stays closed -/
theorem step_chLe {s s' : S} {a : Act} (hs : step s a = some s') :
    s.nchan ≤ s'.nchan ∧ ∀ k ch', k < s.nchan → s'.chan k = some ch' → ∃ ch, s.chan k = some ch ∧ ChLe ch ch' := by
  have keep : s'.nchan = s.nchan → CapLe s s' → s.nchan ≤ s'.nchan ∧ ∀ k ch', k < s.nchan → s'.chan k = some ch' → ∃ ch, s.chan k = some ch ∧ ChLe ch ch' :=
    fun h1 h2 => ⟨Nat.le_of_eq h1.symm, fun k ch' _ e => h2.le k ch' e⟩
  unfold Rt.step at hs
  split at hs
  · cases hs
  cases a with
  | call c =>
    simp only at hs
    split at hs
    · cases hs
    rename_i i hc
    split at hs <;> cases hs
    by_cases h1 : ∃ cap, c = .chMake cap
    · obtain ⟨cap, rfl⟩ := h1
      refine ⟨by simp [doCall], ?_⟩
      intro k ch hk e
      have e' : (if k = s.nchan then some ({ cap := cap } : Chan) else s.chan k) = some ch := e
      rw [if_neg (by omega)] at e'; exact ⟨ch, e', .refl _⟩
    by_cases h2 : c = .genStart
    · subst h2
      refine ⟨by simp [doCall, doGenStart, doStart], ?_⟩
      intro k ch hk e
      have e' : (if k = s.nchan then some ({ rc := 1 } : Chan) else s.chan k) = some ch := e
      rw [if_neg (by omega)] at e'; exact ⟨ch, e', .refl _⟩
    have hc0 : CapLe s (callSt s i c) := .same rfl
    refine keep ?_ (hc0.trans ?_)
    · show (doCall (callSt s i c) i c).nchan = (callSt s i c).nchan
      generalize callSt s i c = t
      cases c <;> first | exact absurd rfl h2 | exact absurd ⟨_, rfl⟩ h1 | (simp [doCall]; done) | skip
      all_goals simp only [doCall]
      · split <;> simp
    · show CapLe _ (doCall (callSt s i c) i c)
      generalize callSt s i c = t
      by_cases hn : c.noChan = true
      · exact .same (doCall_chan _ _ _ hn)
      · cases c <;> first | exact absurd rfl h2 | exact absurd ⟨_, rfl⟩ h1 | (simp [Call.noChan] at hn; done) | simp only [doCall]
        · split
          · exact .same rfl
          · rename_i hc; refine ((CapLe.refl t).set hc ?_).post rfl; exact ⟨rfl, id, id⟩
        · exact (chanRelease_cap ..).post rfl
        · exact chanSend_cap ..
        · exact chanBcast_cap ..
        · exact chanRecv_cap ..
        · exact chanRecv_cap ..
        · unfold chanClose; (repeat' split)
          · exact .same rfl
          · exact .same rfl
          · exact chanClose1_cap _ _ _ (by assumption) _
        · exact chanSelect_cap ..
        · exact chanSelect_cap ..
        · unfold doGenYield; split
          · exact .same rfl
          · exact chanSend_cap ..
  | finish => simp only at hs; (repeat' split at hs) <;> cases hs <;> exact keep rfl (.same rfl)
  | tau =>
    simp only at hs
    split at hs
    · exact keep (tauCo_nchan hs) (tauCo_cap hs)
    · obtain ⟨e1, e2, e3⟩ := tauMain_Q hs
      exact keep e3 (.same e2)
  | submit ok => simp only at hs; (repeat' split at hs) <;> cases hs <;> exact keep rfl (.same rfl)
  | events evs =>
    simp only at hs; split at hs <;> cases hs
    refine keep ?_ (.same ?_)
    · show (if s.nevwaiters > 0 then mEvents s evs else s).nchan = _; split <;> simp
    · show (if s.nevwaiters > 0 then mEvents s evs else s).chan = _; split <;> simp
  | clock t => simp only at hs; split at hs <;> cases hs; exact keep rfl (.same rfl)
  | signal n => simp only at hs; (repeat' split at hs) <;> cases hs <;> exact keep rfl (.same rfl)
  | wdone i => simp only at hs; split at hs <;> cases hs; exact keep rfl (.same rfl)

/-- no new call event, except in the step of a call -/
theorem step_callEv {s s' : S} {a : Act} (hs : step s a = some s') {k : Nat} {c : Call} (h : .call k c ∈ s'.log) :
    .call k c ∈ s.log ∨ (a = .call c ∧ s.sco.cur = some k) := by
  cases a with
  | call c' =>
    obtain ⟨i, hc, hu, hn, e⟩ := step_call hs
    obtain ⟨fs, h1, h2⟩ := call_log hs hc
    rw [h1] at h
    rcases List.mem_append.mp h with h | h
    · exact absurd (h2 _ h) (callKinds_call c')
    · rcases List.mem_cons.mp h with h | h
      · cases h; exact .inr ⟨rfl, hc⟩
      · exact .inl h
  | _ =>
    obtain ⟨es, h1, h2⟩ := step_adds hs
    rw [h1] at h
    rcases List.mem_append.mp h with h | h
    · have := h2 _ h
      simp [stepKinds, Ev.kind] at this <;> (repeat' split at this) <;> first | exact absurd this (pcKinds_call _) | exact absurd this (mainKinds_call _) | simp at this
    · exact .inl h

/-- the channel is closed for sending, or gone -/
def Shut (s : S) (c : Nat) : Prop := c < s.nchan ∧ ∀ ch, s.chan c = some ch → ch.sclosed = true

theorem Shut.step {s s' : S} {a : Act} {c : Nat} (h : Shut s c) (hs : Rt.step s a = some s') : Shut s' c := by
  obtain ⟨h1, h2⟩ := step_chLe hs
  refine ⟨Nat.lt_of_lt_of_le h.1 h1, fun ch' e => ?_⟩
  obtain ⟨ch, e1, e2⟩ := h2 c ch' h.1 e
  exact e2.2.1 (h.2 ch e1)

theorem chan_lt {ok} {s : S} (r : Reach ok s) {c : Nat} {ch : Chan} (h : s.chan c = some ch) : c < s.nchan :=
  Nat.lt_of_not_le (fun hx => by rw [(reach_invC r).fresh c hx] at h; cases h)

theorem chanClose1_sclosed {s : S} {i c : Nat} {ch : Chan} {a : Aft} (hc : s.chan c = some ch) {ch' : Chan} (h : (chanClose1 s i c ch a).chan c = some ch') : ch'.sclosed = true := by
  have h1 : CapLe (setChan s c { ch with sclosed := true }) (chanClose1 s i c ch a) := by
    unfold chanClose1; dsimp only
    split
    · exact .same rfl
    · refine CapLe.post (t := closeEnd (closeLoop _ c _) c) ?_ (by simp; rfl)
      exact CapLe.upd (c := c) (f := fun ch => { ch with rclosed := true, qrecv := false }) (.core (closeLoop_core _ _ _)) (fun _ => ⟨rfl, id, fun _ => rfl⟩) rfl
  obtain ⟨c0, e1, e2⟩ := h1.le c ch' h
  simp [setChan] at e1; subst e1
  exact e2.2.1 rfl

theorem reach_shut {ok} {s : S} (r : Reach ok s) {k c : Nat} (hm : .call k (.close c) ∈ s.log) (hf : s.fault = false) : Shut s c := by
  induction r with
  | init a e => simp [init] at hm
  | @step s s' r a hok hs ih =>
    rcases step_callEv hs hm with h | ⟨rfl, hc⟩
    · exact (ih h (step_nofault hs)).step hs
    · obtain ⟨hu, _, e⟩ := step_call_of hs hc
      have e' : s' = chanClose (callSt s k (.close c)) k c := e
      unfold chanClose at e'
      split at e'
      · rw [e'] at hf; cases hf
      · rename_i ch hch
        have hlt : c < s.nchan := chan_lt r (show s.chan c = some ch from hch)
        refine ⟨Nat.lt_of_lt_of_le hlt (step_chLe hs).1, ?_⟩
        split at e'
        · rename_i hsc; intro ch' e2; rw [e'] at e2; simp at e2; rw [hch] at e2; cases e2; exact hsc
        · intro ch' e2; rw [e'] at e2; exact chanClose1_sclosed hch e2

end Neco.Rt
