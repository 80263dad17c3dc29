import Verif.Proof.RtLock2
import Verif.Proof.RtFrom
import Verif.Proof.RtGen3
/-!
# Who gives a mutex to whom
-/
namespace Neco.Rt
open Neco.Err

/-- the three ways a mutex is given to a coroutine: by a release, by its own call, or at the end of `neco_cond_wait` -/
inductive Grant (s : S) (a : Act) (s' : S) (es : List Ev) (m i : Nat) (rd : Bool) : Prop
  | hand (k : Nat) (c : Call) (ha : a = .call c) (hk : s.sco.cur = some k) (hc : c = .unlock m ∨ ∃ v dl, c = .cvWait v m dl)
      (he : es = ((nextUp (queue s m)).map (fun e => Ev.grant m e.1 e.2)).reverse ++ [.release m k, .call k c]) (hi : (i, rd) ∈ nextUp (queue s m))
  | own (c : Call) (ha : a = .call c) (hk : s.sco.cur = some i) (hc : c.takes m rd) (he : es = [.grant m i rd, .call i c]) (ho : outPc (s'.co i).pc = some OK)
      (hf : rd = false → (s.mu m).locked = false) (hf' : rd = true → rdBusy s m = false)
  | relock (v : Nat) (dl : Int) (ha : a = .tau) (hk : s.sco.cur = some i) (hp : (s.co i).pc = .relock) (hc : (s.co i).call = .cvWait v m dl) (hr : rd = false)
      (he : es = [.grant m i false]) (hf : (s.mu m).locked = false)

theorem queue_call {s : S} {i : Nat} {c : Call} {e : Ev} {m : Nat} : queue (note (callSt s i c) e) m = queue s m := by
  unfold queue
  show ((s.lists (.muQ m)).map _) = _
  apply List.map_congr_left
  intro n _
  show (n.owner, ((callSt s i c).co n.owner).rlocked) = _
  rw [callSt_field Co.rlocked (by intros; rfl)]

theorem step_grant {s s' : S} {a : Act} (hs : step s a = some s') {es : List Ev} (hl : s'.log = es ++ s.log) {m i : Nat} {rd : Bool} (hg : .grant m i rd ∈ es) :
    Grant s a s' es m i rd := by
  obtain ⟨es', hes, hk⟩ := step_adds hs
  have : es' = es := List.append_cancel_right (hes.symm.trans hl)
  subst this
  have hkg := hk _ hg
  simp only [Ev.kind] at hkg
  have noEs : ∀ l, s'.log = l ++ s.log → es' = l := fun l h => List.append_cancel_right (hl.symm.trans h)
  cases a with
  | call c =>
    obtain ⟨j, hc, hx1, hx2, e⟩ := step_call hs
    have free : ∀ (t : S) (k : Nat) (rd' : Bool), s' = t → t.log = .grant k j rd' :: .call j c :: s.log → c.takes k rd' → outPc (t.co j).pc = some OK →
        (rd' = false → (s.mu k).locked = false) → (rd' = true → rdBusy s k = false) → Grant s (.call c) s' es' m i rd := by
      intro t k rd' e h1 h2 h3 h4 h5
      subst e
      have h6 := noEs [.grant k j rd', .call j c] h1
      rw [h6] at hg
      simp only [List.mem_cons, Ev.grant.injEq, reduceCtorEq, List.not_mem_nil, or_false] at hg
      obtain ⟨rfl, rfl, rfl⟩ := hg
      exact .own c rfl hc h2 h6 h3 h4 h5
    have none : s'.log = .call j c :: s.log → Grant s (.call c) s' es' m i rd := by
      intro h
      rw [noEs [.call j c] h] at hg; simp at hg
    have hand : ∀ k, s'.log = (fastUnlock (note (callSt s j c) (.release k j)) k).log → (c = .unlock k ∨ ∃ v dl, c = .cvWait v k dl) → Grant s (.call c) s' es' m i rd := by
      intro k h1 h2
      by_cases hz : (s.mu k).locked = false ∨ 1 < (s.mu k).rlocked
      · rw [fastUnlock_log0 (s := note (callSt s j c) (.release k j)) hz] at h1
        rw [noEs [.release k j, .call j c] h1] at hg; simp at hg
      · simp only [not_or, Bool.not_eq_false, Nat.not_lt] at hz
        rw [fastUnlock_log (s := note (callSt s j c) (.release k j)) hz.1 hz.2, queue_call] at h1
        have h3 := noEs (((nextUp (queue s k)).map (fun e => Ev.grant k e.1 e.2)).reverse ++ [.release k j, .call j c]) (by rw [h1]; simp [callSt])
        rw [h3] at hg
        simp only [List.mem_append, List.mem_reverse, List.mem_map, Ev.grant.injEq, List.mem_cons, reduceCtorEq, List.not_mem_nil, or_false] at hg
        obtain ⟨⟨x, y⟩, g1, rfl, rfl, rfl⟩ := hg
        exact .hand j c rfl hc h2 h3 g1
    cases c <;> simp [stepKinds, callKinds] at hkg
    case lock k dl =>
      simp only [doCall] at e
      unfold muLock at e
      dsimp only at e
      (repeat' split at e)
      · exact none (by rw [e]; simp [callSt])
      · exact none (by rw [e]; simp [callSt, finishLock])
      · rename_i g
        exact free _ k false e rfl ⟨rfl, rfl⟩ (by rw [pc_retv]; rfl) (fun _ => Bool.eq_false_iff.mpr g) (by simp)
    case rdlock k dl =>
      simp only [doCall] at e
      unfold muRdlock at e
      dsimp only at e
      (repeat' split at e)
      · exact none (by rw [e]; simp [callSt])
      · exact none (by rw [e]; simp [callSt, finishLock])
      · rename_i g
        exact free _ k true e rfl ⟨rfl, rfl⟩ (by rw [pc_retv]; rfl) (by simp) (fun _ => Bool.eq_false_iff.mpr g)
    case trylock k =>
      simp only [doCall] at e
      unfold muTrylock at e
      split at e
      · exact none (by rw [e]; simp [callSt])
      · rename_i g
        exact free _ k false e rfl ⟨rfl, rfl⟩ (by rw [pc_retv]; rfl) (fun _ => Bool.eq_false_iff.mpr g) (by simp)
    case tryrdlock k =>
      simp only [doCall] at e
      unfold muTryrdlock at e
      split at e
      · exact none (by rw [e]; simp [callSt])
      · rename_i g
        exact free _ k true e rfl ⟨rfl, rfl⟩ (by rw [pc_retv]; rfl) (by simp) (fun _ => Bool.eq_false_iff.mpr g)
    case unlock k =>
      exact hand k (by rw [e]; simp only [doCall]; rw [muUnlock_log]) (.inl rfl)
    case cvWait v k dl =>
      simp only [doCall] at e
      unfold cvWait at e
      (repeat' split at e)
      · exact none (by rw [e]; simp [callSt])
      · exact hand k (by rw [e]; simp) (.inr ⟨v, dl, rfl⟩)
      · exact hand k (by rw [e]; simp) (.inr ⟨v, dl, rfl⟩)
  | tau =>
    simp only [stepKinds] at hkg
    split at hkg
    · rename_i j hc
      have ht : tauCo s j = some s' := by
        unfold Rt.step at hs; split at hs
        · cases hs
        · simpa [hc] using hs
      have hp : (s.co j).pc = .relock := by
        unfold pcKinds at hkg; split at hkg <;> first | assumption | (simp at hkg)
      unfold tauCo at ht; rw [hp] at ht; simp only at ht
      split at ht <;> cases ht
      · rename_i v k dl hcl
        have none : (doRelock s j k).log = s.log → Grant s .tau (doRelock s j k) es' m i rd := by
          intro h
          rw [noEs [] h] at hg; cases hg
        by_cases g : (s.mu k).locked = false
        · have h1 : (doRelock s j k).log = .grant k j false :: s.log := by unfold doRelock; rw [if_pos g]; rfl
          have h6 := noEs [.grant k j false] h1
          rw [h6] at hg
          simp only [List.mem_cons, Ev.grant.injEq, List.not_mem_nil, or_false] at hg
          obtain ⟨rfl, rfl, rfl⟩ := hg
          exact .relock v dl rfl hc hp hcl rfl h6 g
        · by_cases g2 : dlCode s j MAX = CANCELED ∧ (s.co j).async = true
          · have h1 : (doRelock s j k).log = .kill j false :: s.log := by unfold doRelock; rw [if_neg g, if_pos g2]; rfl
            rw [noEs [.kill j false] h1] at hg; simp at hg
          · apply none; unfold doRelock; rw [if_neg g, if_neg g2]; split <;> simp [finishLock]
      · exfalso; rw [noEs [] rfl] at hg; cases hg
    · unfold mainKinds at hkg; split at hkg <;> simp at hkg
  | _ => simp [stepKinds] at hkg

/-! ## A lock call that has been given the mutex by nobody else -/

theorem out_step {ok} {s s' : S} {a : Act} (r : Reach ok s) (hs : step s a = some s') {j : Nat} (h : (s.co j).pc.exiting = true ∨ outPc (s.co j).pc = some OK)
    (hc' : (s'.co j).call ≠ .none) : (s'.co j).pc.exiting = true ∨ outPc (s'.co j).pc = some OK := by
  cases step_pcs r hs j with
  | same h1 => rw [h1]; exact h
  | new ha hj h1 =>
    obtain ⟨i, g, _, e1, _⟩ := start_new ha hs
    exfalso
    subst hj
    apply hc'
    rw [e1]; exact (newCo_pc s i g).2
  | call c ha hc hu h1 => rw [hu] at h; rcases h with h | h <;> cases h
  | finish ha hc hu h1 => rw [hu] at h; rcases h with h | h <;> cases h
  | tau ha hc h1 =>
    rcases h with h | h
    · exact .inl (tauCo_exiting h1 h)
    · rcases tauCo_out2 h1 h with h | h | h
      · exact .inl h
      · exact .inr h
      · exact absurd h hc'
  | submit ha hc hp h1 => rw [hp] at h; rcases h with h | h <;> cases h

/-- a coroutine that is in a lock call and was given the mutex during it was given it by a release, or is about to return `NECO_OK` -/
def InvGr (s : S) : Prop := ∀ i m rd rd' dl, (s.co i).call = lockCall m rd' dl → .grant m i rd ∈ since i s.log →
    (∃ k, .release m k ∈ since i s.log) ∨ (s.co i).pc.exiting = true ∨ outPc (s.co i).pc = some OK

theorem since_ext {i : Nat} {es l : List Ev} (h : ∀ e ∈ es, isCallOf i e = false) : since i (es ++ l) = es ++ since i l := by
  unfold since
  rw [List.takeWhile_append_of_pos]
  intro e he; simp [h e he]

theorem pending_ext {i : Nat} {c : Call} {es l : List Ev} (h : ∀ e ∈ es, isCallOf i e = false) (hp : pending i (es ++ l) = some c) : pending i l = some c := by
  induction es with
  | nil => exact hp
  | cons e es ih =>
    have h1 := h e (by simp)
    have ih' := ih (fun e he => h e (by simp [he]))
    simp only [List.cons_append] at hp
    cases e <;> simp only [pending] at hp <;> first | exact ih' hp | skip
    · simp only [isCallOf, beq_eq_false_iff_ne] at h1
      rw [if_neg h1] at hp; exact ih' hp
    · split at hp
      · cases hp
      · exact ih' hp

theorem lockCall_ne_none {m : Nat} {rd : Bool} {dl : Int} : lockCall m rd dl ≠ .none := by unfold lockCall; split <;> simp

theorem InvGr.step {ok} {s s' : S} {a : Act} (h : InvGr s) (r : Reach ok s) (r' : Reach ok s') (hs : Rt.step s a = some s') : InvGr s' := by
  intro i m rd rd' dl hcl hg
  by_cases hi : ∃ c, a = .call c ∧ s.sco.cur = some i
  · obtain ⟨c, rfl, hc⟩ := hi
    obtain ⟨fs, e1, e2⟩ := call_log hs hc
    have hcc : (s'.co i).call = c := ((pending_call r').mp (pending_call_step hs hc)).1
    rw [hcl] at hcc
    have hnc : ∀ e ∈ fs, isCallOf i e = false := by
      intro e he
      have := e2 e he
      cases e <;> first | rfl | (simp only [Ev.kind] at this; cases c <;> simp [callKinds] at this)
    have hsi : since i s'.log = fs := by rw [e1]; exact since_app hnc
    have hg' : Ev.grant m i rd ∈ fs ++ [.call i c] := by rw [← hsi]; simp [hg]
    cases step_grant hs (es := fs ++ [.call i c]) (by rw [e1]; simp) hg' with
    | hand k c' ha hk hx he hn =>
      cases ha
      subst hcc
      unfold lockCall at hx
      rcases hx with hx | ⟨_, _, hx⟩ <;> split at hx <;> cases hx
    | own c' ha hk hx he ho hf hf' => exact .inr (.inr ho)
    | relock v dl ha => cases ha
  · have hnc : ∀ c, a = .call c → s.sco.cur ≠ some i := fun c e hc => hi ⟨c, e, hc⟩
    obtain ⟨es, hes, hes2⟩ := step_noCall hs hnc
    rw [hes, since_ext hes2] at hg ⊢
    rcases List.mem_append.mp hg with hg | hg
    · cases step_grant hs hes hg with
      | hand k c ha hk hx he hn => exact .inl ⟨k, by rw [he]; simp⟩
      | own c ha hk => exact absurd ⟨c, ha, hk⟩ hi
      | relock v dl' ha hk hp hc hr he hf =>
        left
        exfalso
        have ht : tauCo s i = some s' := by
          subst ha
          unfold Rt.step at hs; split at hs
          · cases hs
          · simpa [hk] using hs
        unfold tauCo at ht; rw [hp] at ht; simp only [hc] at ht
        cases ht
        have : ((doRelock s i m).co i).call = .cvWait v m dl' := by
          rw [← hc]; unfold doRelock; (repeat' split) <;> simp [finishLock, copause_co, push, upd_co, setPc, retv, dlClear]
        rw [hcl] at this
        unfold lockCall at this; split at this <;> cases this
    · have hold : (s.co i).call = lockCall m rd' dl := by
        have hp : pending i s'.log = some (lockCall m rd' dl) := (pending_call r').mpr ⟨hcl, lockCall_ne_none⟩
        rw [hes] at hp
        have hq := pending_ext hes2 hp
        exact ((pending_call r).mp hq).1
      rcases h i m rd rd' dl hold hg with ⟨k, h1⟩ | h1
      · exact .inl ⟨k, List.mem_append.mpr (.inr h1)⟩
      · exact .inr (out_step r hs h1 (by rw [hcl]; exact lockCall_ne_none))

theorem reach_invGr {ok} {s : S} (r : Reach ok s) : InvGr s := by
  induction r with
  | init a e =>
    intro i m rd rd' dl _ h
    have := List.takeWhile_subset _ h
    simp [init] at this
  | step h a ho hs ih => exact ih.step h (.step h a ho hs) hs

end Neco.Rt
