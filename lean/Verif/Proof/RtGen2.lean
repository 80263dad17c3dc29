import Verif.Proof.RtLoop
/-!
# Generators know their channel, and close it when they end
-/
namespace Neco.Rt
open Neco.Err

def tailAft : Aft → Bool
  | .exitTail _ _ | .fin _ => true
  | _ => false

/-- places after the release of the generator -/
def tailPc : Pc → Bool
  | .go a | .yck _ a | .yld _ a => tailAft a
  | .dead => true
  | _ => false

theorem genOf_other {e : Ev} (j : Nat) (l : List Ev) (h : e.kind ≠ .start) : genOf j (e :: l) = genOf j l := by
  cases e <;> first | rfl | exact absurd rfl h
theorem genOf_app {ks : List Kind} {es l : List Ev} {j : Nat} (h : ∀ e ∈ es, e.kind ∈ ks) (hk : .start ∉ ks) : genOf j (es ++ l) = genOf j l := by
  induction es with
  | nil => rfl
  | cons e es ih =>
    rw [List.cons_append, genOf_other _ _ (fun e' => hk (e' ▸ h e List.mem_cons_self)), ih (fun x hx => h x (List.mem_cons_of_mem _ hx))]
theorem genOf_fresh {j : Nat} {l : List Ev} (h : j ∉ starts l) : genOf j l = none := by
  induction l with
  | nil => rfl
  | cons e l ih =>
    cases e <;> first | exact ih h | skip
    rename_i p k
    simp only [starts, List.mem_cons, not_or] at h
    simp only [genOf]; rw [if_neg (fun e => h.1 e.symm)]; exact ih h.2

theorem chanClose1_tail {s : S} {i c : Nat} {ch : Chan} {a : Aft} (h : tailAft a = false) : tailPc ((chanClose1 s i c ch a).co i).pc = false := by
  unfold chanClose1; dsimp only; split
  · rw [pc_setPc]; cases a <;> first | rfl | cases h
  · rw [(pc_yfsr ..).choose_spec]; cases a <;> first | rfl | cases h

macro "tail_tac" : tactic => `(tactic| ((try dsimp only); (repeat' split) <;> (try simp_all [tailPc, tailAft])))

theorem doCall_tail (s : S) (i : Nat) (c : Call) (hu : tailPc (s.co i).pc = false) (hn : i ≤ s.sco.nextId) :
    tailPc ((doCall s i c).co i).pc = false := by
  cases c <;> simp only [doCall]
  case none => exact hu
  case send => unfold chanSend sendRest; tail_tac
  case genYield => unfold doGenYield chanSend sendRest; tail_tac
  case recv => unfold chanRecv; tail_tac
  case select => unfold chanSelect; tail_tac
  case start => simp [doStart_pc s i none hn, tailPc]
  case genStart => unfold doGenStart; dsimp only; rw [doStart_pc _ _ _ (by exact hn)]; rfl
  case yield => simp [tailPc, tailAft]
  case sleep => unfold doSleep; tail_tac
  case join => unfold doJoin; tail_tac
  case suspend => unfold doSuspend; tail_tac
  case resume => unfold doResume; tail_tac
  case bcast => unfold chanBcast; tail_tac
  case tryrecv =>
    unfold chanRecv; (repeat' split) <;> first | exact hu | (simp [tailPc, tailAft]; done) | skip
    skip
  case close =>
    unfold chanClose; (repeat' split) <;> first | exact hu | (simp [tailPc, tailAft]; done) | exact chanClose1_tail rfl
  case tryselect =>
    unfold chanSelect; dsimp only; (repeat' split) <;> first | exact hu | (simp [tailPc, tailAft]; done) | skip
    skip
  case lock => unfold muLock finishLock; tail_tac
  case rdlock => unfold muRdlock finishLock; tail_tac
  case unlock => unfold muUnlock; tail_tac
  case trylock => unfold muTrylock; tail_tac
  case tryrdlock => unfold muTryrdlock; tail_tac
  case wgAdd => unfold wgAdd; tail_tac
  case wgDone => unfold wgDone; tail_tac
  case wgWait => unfold wgWait; tail_tac
  case cvSignal => unfold cvSignal; tail_tac
  case cvBcast => unfold cvBcast; tail_tac
  case cvWait => unfold cvWait cvEnq; tail_tac
  case sigWatch => unfold doSigWatch; tail_tac
  case sigUnwatch => unfold doSigUnwatch; tail_tac
  case sigWait => unfold doSigWait; tail_tac
  case wait => unfold doWait; tail_tac
  case chRetain => tail_tac
  case chCase => unfold chanCase; tail_tac
  case cpop => unfold doCpop; tail_tac
  all_goals simp [tailPc, tailAft]

/-- a step of a coroutine with a generator does not reach a place after the release without releasing it -/
theorem tauCo_tail {s s' : S} {i : Nat} (h : tauCo s i = some s') (h0 : tailPc (s.co i).pc = true → (s.co i).gen = none) (h1 : tailPc (s'.co i).pc = true) : (s'.co i).gen = none := by
  have hst := tauCo_stat (j := i) h
  have hg : (s.co i).gen = none → (s'.co i).gen = none := by
    rcases hst with h | ⟨_, ⟨_, h, h'⟩ | ⟨_, _, h, _, h'⟩ | ⟨_, _, h, h'⟩⟩
    · rw [stat_gen h]; exact id
    · rw [stat_gen h']; exact id
    · rw [stat_gen h']; exact id
    · rw [stat_gen h']; exact fun _ => rfl
  unfold tauCo at h
  split at h
  case h_1 => cases h
  case h_2 => cases h
  case h_3 => cases h
  case h_4 => cases h; exfalso; revert h1; unfold doRet; split <;> simp [tailPc, upd_co]
  case h_5 n a hp =>
    apply hg; apply h0; rw [hp]
    (repeat' split at h) <;> cases h
    · rw [pc_setPc] at h1; cases h1
    · rw [pc_setPc] at h1; exact h1
    · rw [pc_coyield] at h1; exact h1
  case h_6 n a hp =>
    apply hg; apply h0; rw [hp]
    cases h; rw [pc_coyield] at h1; exact h1
  case h_7 a hp =>
    cases h
    cases a with
    | ret v => simp [doAft, tailPc] at h1
    | condEnq => exfalso; revert h1; simp only [doAft, cvEnq]; split <;> simp_all [tailPc, tailAft]
    | genRel =>
      simp only [doAft] at h1 ⊢; split
      · simp [setPc, upd_co]
      · assumption
    | exitTail => exact hg (h0 (by rw [hp]; rfl))
    | fin a => exact hg (h0 (by rw [hp]; rfl))
  case h_8 => cases h; simp [tailPc, tailAft] at h1
  case h_9 b _ => cases h; exfalso; revert h1; cases b <;> simp only [afterBlk] <;> (repeat' split) <;> simp [tailPc, tailAft]
  case h_10 hp =>
    exfalso; revert h1
    (split at h) <;> cases h
    · unfold doCancel; tail_tac
    · simp [hp, tailPc]
  case h_11 hp =>
    exfalso; revert h1
    (split at h) <;> cases h
    · unfold doRelock finishLock; tail_tac
    · simp [hp, tailPc]
  case h_12 => cases h; simp [tailPc, tailAft] at h1
  case h_13 a hp =>
    have ex : ∀ x, tailPc ((exitNotify s i x).co i).pc = true → (s.co i).gen = none := by
      intro x hx
      unfold exitNotify at hx; dsimp only at hx
      split at hx
      · rename_i hg'; simpa using hg'
      split at hx
      · simp [hp, tailPc] at hx
      split at hx
      · simp [tailPc, tailAft] at hx
      · rw [chanClose1_tail rfl] at hx; cases hx
    cases h
    apply hg
    unfold doExit at h1; (repeat' split at h1)
    · simp [upd_co, hp, tailPc] at h1
    · exact ex _ h1
    · exact ex _ h1

end Neco.Rt
