import Verif.Proof.RtCancel3
import Verif.Spec.Owed
/-!
# No cancelation is lost
-/
namespace Neco.Rt
open Neco.Err

/-- the operations that wait -/
def waits (c : Call) : Bool := (callDl c).isSome

/-- what a call does when the caller is marked as canceled -/
structure Can (c : Call) (k k' : Co) : Prop where
  a : (k'.canceled = true ∧ ∀ v m dl, c ≠ .cvWait v m dl) ∨ k'.pc = .ret CANCELED
  b : waits c = true → (∃ v, k'.pc = .ret v ∧ (v = CANCELED ∨ early c v)) ∨ (∃ b, k'.pc = .blk b ∧ b ≠ .relock ∧ b ≠ .cancel) ∨ (k'.pc = .cancelTry ∧ early c NOTFOUND)

theorem Can.ret {c : Call} {k k' : Co} (h : k'.pc = .ret CANCELED) : Can c k k' := ⟨.inr h, fun _ => .inl ⟨_, h, .inl rfl⟩⟩
theorem Can.keep {c : Call} {k k' : Co} (h : k'.canceled = true) (hc : waits c = false) : Can c k k' :=
  ⟨.inl ⟨h, fun v m dl e => by subst e; cases hc⟩, fun e => by rw [hc] at e; cases e⟩
theorem Can.early {c : Call} {k k' : Co} {v : Int} (h : k'.canceled = true) (hp : k'.pc = .ret v) (hv : Rt.early c v) : Can c k k' :=
  ⟨.inl ⟨h, fun v m dl e => by subst e; exact hv⟩, fun _ => .inl ⟨_, hp, .inr hv⟩⟩

section
variable {s : S} {i : Nat} (hc : (s.co i).canceled = true)
include hc

theorem dlCode_can (dl : Int) : dlCode s i dl = CANCELED := dlCode_canceled.mpr hc

theorem copause_can {dl : Int} {b : Blk} : copause s i dl b = setPc s i (.blk b) := by unfold copause; rw [if_pos (.inl hc)]

theorem chanSend_can {c : Nat} {m : Msg} {dl : Int} (hf : (chanSend s i c m dl).fault = false) :
    ((chanSend s i c m dl).co i).pc = .ret CANCELED ∨ (((chanSend s i c m dl).co i).canceled = true ∧ ((chanSend s i c m dl).co i).pc = .ret CLOSED) := by
  revert hf; unfold chanSend; simp only [if_pos hc]; split
  · simp
  · intro _; split
    · exact .inr ⟨by simp [retv_co, hc], by simp [retv_co]⟩
    · exact .inl (by simp [retv_co])

theorem doCall_can {c : Call} (hn : i ≤ s.sco.nextId) (hf : (doCall s i c).fault = false) : Can c (s.co i) ((doCall s i c).co i) := by
  have hs := doCall_spend (s := s) (i := i) c hn
  cases c
  case sleep dl =>
    simp only [doCall, doSleep]; split
    · exact .early (by simp [retv_co, hc]) (by simp [retv_co]) rfl
    · rw [copause_can (by exact hc)]
      exact ⟨.inl ⟨by simp [setPc_co, hc], by simp⟩, fun _ => .inr (.inl ⟨.sleep, by simp [setPc_co], by simp, by simp⟩)⟩
  case suspend dl =>
    simp only [doCall, doSuspend]
    rw [copause_can (by simp [upd_co, hc])]
    exact ⟨.inl ⟨by simp [setPc_co, upd_co, hc], by simp⟩, fun _ => .inr (.inl ⟨.susp, by simp [setPc_co], by simp, by simp⟩)⟩
  case wait fd wr dl =>
    simp only [doCall, doWait]
    rw [copause_can (by exact hc)]
    exact ⟨.inl ⟨by simp [setPc_co, hc], by simp⟩, fun _ => .inr (.inl ⟨.wait, by simp [setPc_co], by simp, by simp⟩)⟩
  case join id dl =>
    simp only [doCall, doJoin]; split
    · exact .early (by simp [retv_co, hc]) (by simp [retv_co]) rfl
    · rw [if_pos (by rw [dlCode_can hc]; decide), dlCode_can hc]; exact .ret (by simp [retv_co])
  case send c m dl =>
    rcases chanSend_can hc hf with h | ⟨h1, h2⟩
    · exact .ret h
    · exact .early h1 h2 rfl
  case genYield m dl =>
    revert hf; simp only [doCall, doGenYield]; split
    · intro _; exact .early (by simp [retv_co, hc]) (by simp [retv_co]) (.inr rfl)
    · intro hf
      rcases chanSend_can hc hf with h | ⟨h1, h2⟩
      · exact .ret h
      · exact .early h1 h2 (.inl rfl)
  case recv c dl =>
    revert hf; simp only [doCall, chanRecv, if_pos hc]; split
    · simp
    · intro _; split
      · exact .early (by simp [retv_co, hc]) (by simp [retv_co]) rfl
      · exact .ret (by simp [retv_co])
  case tryrecv c =>
    revert hf; simp only [doCall, chanRecv, if_pos hc]; split
    · simp
    · intro _; split
      · exact .keep (by simp [retv_co, hc]) rfl
      · exact .ret (by simp [retv_co])
  case select cs dl =>
    revert hf; simp only [doCall, chanSelect, if_pos hc]; split
    · simp
    · intro _; exact .ret (by simp [retv_co])
  case tryselect cs =>
    revert hf; simp only [doCall, chanSelect, if_pos hc]; split
    · simp
    · intro _; exact .ret (by simp [retv_co])
  case lock m dl =>
    simp only [doCall, muLock]; rw [if_pos (by rw [dlCode_can hc]; decide), dlCode_can hc]; exact .ret (by simp [retv_co])
  case rdlock m dl =>
    simp only [doCall, muRdlock]; rw [if_pos (by rw [dlCode_can hc]; decide), dlCode_can hc]; exact .ret (by simp [retv_co])
  case wgWait m dl =>
    simp only [doCall, wgWait]; rw [if_pos (by rw [dlCode_can hc]; decide), dlCode_can hc]; exact .ret (by simp [retv_co])
  case cvWait v m dl =>
    simp only [doCall, cvWait, if_pos hc]; exact .ret (by simp [retv_co])
  case cancel id dl =>
    simp only [doCall]
    exact ⟨.inl ⟨by simp [setPc_co, hc], by simp⟩, fun _ => .inr (.inr ⟨by simp [setPc_co], rfl⟩)⟩
  case sigWait dl =>
    simp only [doCall, doSigWait, if_pos hc]; split
    · exact .early (by simp [retv_co, hc]) (by simp [retv_co]) rfl
    · exact .ret (by simp [retv_co])
  all_goals refine .keep ?_ rfl
  case start =>
    have : ((doStart s i none).co i) = { s.co i with pc := .ret OK, lastid := s.sco.nextId + 1 } := by
      simp only [doStart, upd_co]; rw [if_neg (by omega)]; simp
    show ((doStart s i none).co i).canceled = true
    rw [this]; exact hc
  case genStart =>
    simp only [doCall, doGenStart, doStart, upd_co]; rw [if_neg (by omega)]; simp [hc]
  case bcast c m =>
    simp only [doCall, chanBcast]; split
    · exact hc
    · split
      · simp [retv_co, hc]
      · simp only [yfsr, coyield_co, if_true]
        unfold bcastTry; split
        · exact (fl_canceled (bcastLoop_fl ..)).trans hc
        · exact hc
  case close c =>
    simp only [doCall, chanClose]; (repeat' split)
    · exact hc
    · simp [retv_co, hc]
    · unfold chanClose1; dsimp only; split
      · simp [setPc_co, hc]
      · simp only [yfsr, coyield_co, if_true, closeEnd]
        exact (fl_canceled (closeLoop_fl ..)).trans hc
  case chRetain => simp only [doCall]; split <;> simp [retv_co, hc]
  case chCase => simp only [doCall, chanCase]; (repeat' split) <;> simp [retv_co, upd_co, hc]
  case trylock => simp only [doCall, muTrylock]; (repeat' split) <;> simp [retv_co, hc]
  case tryrdlock => simp only [doCall, muTryrdlock]; (repeat' split) <;> simp [retv_co, hc]
  case wgAdd => simp only [doCall, wgAdd]; (repeat' split) <;> simp [retv_co, hc]
  case wgDone => simp only [doCall, wgDone]; (repeat' split) <;> simp [retv_co, yfsr, coyield_co, hc]
  case cvSignal => simp only [doCall, cvSignal]; (repeat' split) <;> simp [retv_co, hc]
  case unlock m => simp only [doCall, muUnlock]; split <;> simp [yfsr, coyield_co, hc]
  case resume => simp only [doCall, doResume]; (repeat' split) <;> simp [retv_co, hc]
  case cpop => simp only [doCall, doCpop]; (repeat' split) <;> simp [retv_co, upd_co, hc]
  case sigWatch => simp only [doCall, doSigWatch]; (repeat' split) <;> simp [retv_co, upd_co, hc]
  case sigUnwatch => simp only [doCall, doSigUnwatch]; (repeat' split) <;> simp [retv_co, upd_co, hc]
  all_goals (simp [doCall, cvBcast, yfsr, retv_co, upd_co, setPc_co, coyield_co, hc]; done)
end

/-- the call will return `NECO_CANCELED`, or one of the results `e` -/
def Doom (e : Int → Prop) (k : Co) : Prop :=
  k.pc.exiting = true ∨ (∃ v, k.pc = .ret v ∧ (v = CANCELED ∨ e v)) ∨
  (k.canceled = true ∧ ∃ b, k.pc = .blk b ∧ b ≠ .relock ∧ (b = .cancel → e NOTFOUND)) ∨
  (k.canceled = true ∧ k.pc = .cancelTry ∧ e NOTFOUND) ∨
  (relPc k.pc = true ∧ k.sav = CANCELED)

theorem Doom.mv {e : Int → Prop} {j : Nat} {s t : S} (h : Doom e (s.co j)) (m : Mv j s t) : Doom e (t.co j) := by
  have key : (t.co j).pc = (s.co j).pc → (t.co j).sav = (s.co j).sav → ((s.co j).canceled = true → (t.co j).canceled = true) → Doom e (t.co j) := by
    intro h1 h2 h3
    unfold Doom at h ⊢
    rw [h1, h2]
    rcases h with h | h | ⟨h, g⟩ | ⟨h, g⟩ | h
    · exact .inl h
    · exact .inr (.inl h)
    · exact .inr (.inr (.inl ⟨h3 h, g⟩))
    · exact .inr (.inr (.inr (.inl ⟨h3 h, g⟩)))
    · exact .inr (.inr (.inr (.inr h)))
  cases m with
  | wdone hj co => exact key (by rw [co]) (by rw [co]) (by rw [co]; exact id)
  | canceled i he d => exact key (by rw [d.co]) (by rw [d.co]) (by rw [d.co]; exact fun _ => rfl)
  | _ => rename_i d; exact key (by rw [d.co]; try rfl) (by rw [d.co]; try rfl) (by rw [d.co]; exact id)

theorem Doom.mvs {e : Int → Prop} {j : Nat} {s t : S} (h : Doom e (s.co j)) (m : Mvs j s t) : Doom e (t.co j) := by
  induction m with
  | refl => exact h
  | head a _ ih => exact ih (h.mv a)

theorem pre_can {s : S} {i : Nat} {b : Blk} : ((preBlk (unpause s i) i b).co i).canceled = (s.co i).canceled ∧ ((preBlk (unpause s i) i b).co i).sav = (s.co i).sav ∧
    ((preBlk (unpause s i) i b).co i).async = (s.co i).async := by
  rw [(preBlk_frame _ _ _).2.1]
  unfold unpause; split <;> simp [upd_co]

/-- one step of the coroutine itself -/
theorem Doom.tau {e : Int → Prop} {s s' : S} {i : Nat} (h : Doom e (s.co i)) (hs : tauCo s i = some s') (hf : s'.fault = false) : Doom e (s'.co i) ∨ (s'.co i).call = .none := by
  rcases h with h | ⟨v, h, hv⟩ | ⟨hc, b, h, hb, hbc⟩ | ⟨hc, h, he⟩ | ⟨h, hv⟩
  · exact .inl (.inl (tauCo_exiting hs h))
  · unfold tauCo at hs; rw [h] at hs; simp at hs; subst hs
    unfold doRet; split
    · exact .inl (.inl (by rw [pc_setPc]; rfl))
    · exact .inr (by simp [upd_co])
  · left
    unfold tauCo at hs; rw [h] at hs; simp at hs; subst hs
    obtain ⟨g1, g2, g3⟩ := pre_can (s := s) (i := i) (b := b)
    generalize preBlk (unpause s i) i b = u at *
    have hu : (u.co i).canceled = true := by rw [g1]; exact hc
    have hd : ∀ t : S, (t.co i).canceled = true → dlCode t i MAX = CANCELED := fun t ht => dlCode_canceled.mpr ht
    cases b
    case relock => exact absurd rfl hb
    case cancel => exact .inr (.inr (.inr (.inl ⟨by simp [afterBlk, setPc_co, hu], by simp [afterBlk, setPc_co], hbc rfl⟩)))
    case cond =>
      refine .inr (.inr (.inr (.inr ?_)))
      simp only [afterBlk, setPc_co, upd_co, if_true, relPc, true_and]
      exact hd _ (by exact hu)
    all_goals
      refine .inr (.inl ⟨CANCELED, ?_, .inl rfl⟩)
      simp only [afterBlk]
      first
      | (rw [hd _ (by simp [rm, upd_co, selRm, hu])]; simp [retv_co, CANCELED, OK]; done)
      | (simp [retv_co, hu]; done)
      | skip
  · left
    unfold tauCo at hs; rw [h] at hs; simp only at hs
    revert hs; split
    · rename_i id dl hcl
      intro hs; cases hs
      unfold doCancel; split
      · exact .inr (.inl ⟨_, by simp [retv_co], .inr he⟩)
      · rw [if_pos (by rw [dlCode_can hc]; decide), dlCode_can hc]; exact .inr (.inl ⟨_, by simp [retv_co], .inl rfl⟩)
    · intro hs; cases hs; simp at hf
  · left
    have hp : (s.co i).pc = .relock ∨ (s.co i).pc = .blk .relock := by
      revert h; generalize (s.co i).pc = p; intro h
      cases p <;> simp [relPc] at h ⊢
      rename_i b; cases b <;> simp at h ⊢
    rcases hp with hp | hp
    · unfold tauCo at hs; rw [hp] at hs; simp only at hs
      revert hs; split
      · intro hs; cases hs
        unfold doRelock; (repeat' split)
        · exact .inr (.inl ⟨_, by simp [retv_co], .inl hv⟩)
        · exact .inl (by rw [pc_setPc]; rfl)
        · exact .inr (.inr (.inr (.inr ⟨by simp [relPc], by simp [setPc_co, dlClear_co, hv]⟩)))
        · exact .inr (.inr (.inr (.inr ⟨by unfold finishLock; rw [copause_pc]; rfl, by simp [finishLock, copause_co, upd_co, dlClear_co, hv]⟩)))
      · intro hs; cases hs; simp at hf
    · unfold tauCo at hs; rw [hp] at hs; simp at hs; subst hs
      obtain ⟨t, h1, h2, _, e⟩ := afterBlk_relock (preBlk (unpause s i) i .relock) i
      rw [(pre_can).2.1] at h2
      rw [e]; (repeat' split)
      · exact .inr (.inl ⟨_, by simp [retv_co], .inl (h2.trans hv)⟩)
      · exact .inl (by rw [pc_setPc]; rfl)
      · exact .inr (.inr (.inr (.inr ⟨by simp [relPc], by simp [setPc_co, dlClear_co, h2, hv]⟩)))

/-! ## The mark stays until it is reported -/

/-- the call is not `neco_cond_wait` -/
def NoCv (c : Call) : Prop := ∀ v m dl, c ≠ .cvWait v m dl

theorem blk_can {s : S} {i : Nat} {b : Blk} (hc : (s.co i).canceled = true) (h1 : b ≠ .relock) (h2 : b ≠ .cancel) (h3 : b ≠ .cond) :
    ((afterBlk (preBlk (unpause s i) i b) i b).co i).pc = .ret CANCELED := by
  obtain ⟨g1, g2, g3⟩ := pre_can (s := s) (i := i) (b := b)
  generalize preBlk (unpause s i) i b = u at *
  have hu : (u.co i).canceled = true := by rw [g1]; exact hc
  have hd : ∀ t : S, (t.co i).canceled = true → dlCode t i MAX = CANCELED := fun t ht => dlCode_canceled.mpr ht
  cases b
  case relock => exact absurd rfl h1
  case cancel => exact absurd rfl h2
  case cond => exact absurd rfl h3
  all_goals
    simp only [afterBlk]
    first
    | (rw [hd _ (by simp [rm, upd_co, selRm, hu])]; simp [retv_co, CANCELED, OK]; done)
    | (simp [retv_co, hu]; done)

theorem exitNotify_canceled {s : S} {i : Nat} {a : Bool} : ((exitNotify s i a).co i).canceled = (s.co i).canceled := by
  unfold exitNotify; dsimp only
  (repeat' split)
  · simp [setPc_co]
  · simp
  · simp [setPc_co]
  · unfold chanClose1; dsimp only; split
    · simp [setPc_co]
    · simp only [yfsr, coyield_co, if_true, closeEnd]
      rw [fl_canceled (closeLoop_fl ..)]; simp

theorem tau_can {s s' : S} {i : Nat} (hs : tauCo s i = some s') (hc : (s.co i).canceled = true) (hn : NoCv (s.co i).call) (hft : fits (s.co i)) (hf : s'.fault = false) :
    (s'.co i).canceled = true ∨ (s'.co i).pc = .ret CANCELED ∨ ∃ f, s'.log = .kill i f :: s.log := by
  unfold tauCo at hs
  split at hs
  · cases hs
  · cases hs
  · cases hs
  · cases hs; unfold doRet; split
    · exact .inr (.inr ⟨_, rfl⟩)
    · exact .inl (by simp [upd_co, hc])
  · split at hs
    · cases hs; exact .inr (.inr ⟨_, rfl⟩)
    · split at hs <;> cases hs <;> exact .inl (by simp [setPc_co, coyield_co, hc])
  · cases hs; exact .inl (by simp [coyield_co, hc])
  · rename_i a e; cases hs
    cases a <;> simp only [doAft] at hf ⊢
    · exact .inl (by simp [retv_co, hc])
    · split at hf
      · rename_i h; exact absurd h (hn _ _ _)
      · simp at hf
    · split at hf
      · exact .inl (by simp [setPc_co, upd_co, hc])
      · simp at hf
    · split <;> exact .inl (by simp [yfsr, coyield_co, setPc_co, hc])
    · exact .inl (by simp [doFin, setPc_co, hc])
  · cases hs; exact .inl (by simp [retv_co, hc])
  · rename_i b e; cases hs
    by_cases h1 : b = .relock
    · subst h1; unfold fits at hft; rw [e] at hft; obtain ⟨_, _, _, h, _⟩ := hft; exact absurd h (hn _ _ _)
    by_cases h2 : b = .cancel
    · subst h2; exact .inl (by simp only [afterBlk, setPc_co, if_true, rm_co]; rw [(pre_can).1]; exact hc)
    by_cases h3 : b = .cond
    · subst h3; unfold fits at hft; rw [e] at hft; simp only [BlkC] at hft; obtain ⟨_, _, _, h⟩ := hft; exact absurd h (hn _ _ _)
    exact .inr (.inl (blk_can hc h1 h2 h3))
  · split at hs <;> cases hs
    · unfold doCancel; split
      · exact .inl (by simp [retv_co, hc])
      · rw [if_pos (by rw [dlCode_can hc]; decide), dlCode_can hc]; exact .inr (.inl (by simp [retv_co]))
    · simp at hf
  · split at hs <;> cases hs
    · rename_i h; exact absurd h (hn _ _ _)
    · simp at hf
  · cases hs; exact .inl (by simp [retv_co, hc])
  · cases hs
    unfold doExit; (repeat' split)
    · exact .inl (by simp [upd_co, hc])
    · exact .inl (by rw [exitNotify_canceled]; exact hc)
    · exact .inl (by rw [exitNotify_canceled]; exact hc)

theorem Mv.canceled_keep {j : Nat} {s t : S} (m : Mv j s t) (h : (s.co j).canceled = true) : (t.co j).canceled = true := by
  cases m with
  | wdone hj co => rw [co]; exact h
  | canceled i he d => rw [d.co]
  | _ => rename_i d; rw [d.co]; exact h
theorem Mvs.canceled_keep {j : Nat} {s t : S} (m : Mvs j s t) (h : (s.co j).canceled = true) : (t.co j).canceled = true := by
  induction m with
  | refl => exact h
  | head a _ ih => exact ih (a.canceled_keep h)

/-! ## The log -/

theorem inCond_filter (i : Nat) (l : List Ev) : inCond i (l.filter Ev.rare) = inCond i l := by unfold inCond; rw [pending_filter]
theorem owedQ_filter (i : Nat) (l : List Ev) : owedQ i (l.filter Ev.rare) = owedQ i l := by
  induction l with
  | nil => rfl
  | cons e l ih => cases e <;> simp [Ev.rare, owedQ, List.filter_cons, ih, inCond_filter]
theorem owedQ_rl (i : Nat) (s : S) : owedQ i (rl s) = owedQ i s.log := owedQ_filter i s.log
theorem inCond_iff {ok} {s : S} (r : Reach ok s) {i : Nat} : inCond i s.log = false ↔ NoCv (s.co i).call := by
  unfold inCond NoCv
  constructor
  · intro h v m dl e
    rw [(pending_call r).mpr ⟨e, by simp⟩] at h; cases h
  · intro h
    split
    · rename_i hp; exact absurd ((pending_call r).mp hp).1 (h _ _ _)
    · rfl

end Neco.Rt
