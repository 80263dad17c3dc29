import Verif.Proof.RtWaiter
/-!
# Handing a mutex over
-/
namespace Neco.Rt
open Neco.Err

theorem handoff_log {m : Nat} (n : Node) (q : List Node) (t : S) :
    (handoff t m (n :: q)).log = ((nextUp ((n :: q).map (fun n => (n.owner, (t.co n.owner).rlocked)))).map (fun e => Ev.grant m e.1 e.2)).reverse ++ t.log := by
  induction q generalizing n t with
  | nil =>
    unfold handoff
    dsimp only
    have ec : ((schedResume (setList t (.muQ m) []) n.owner).co n.owner).rlocked = (t.co n.owner).rlocked := by simp
    rw [ec]
    cases h : (t.co n.owner).rlocked
    · simp [nextUp, h]
    · simp [nextUp, h]
  | cons n' q ih =>
    rw [handoff]
    dsimp only
    have ec : ((schedResume (setList t (.muQ m) (n' :: q)) n.owner).co n.owner).rlocked = (t.co n.owner).rlocked := by simp
    rw [ec]
    cases h : (t.co n.owner).rlocked
    · simp [nextUp, h]
    · simp only [if_true]
      generalize hu : note (setMu (schedResume (setList t (.muQ m) (n' :: q)) n.owner) m _) (.grant m n.owner true) = u
      have e1 : u.log = .grant m n.owner true :: t.log := by rw [← hu]; rfl
      have e2 : u.co = t.co := by rw [← hu]; simp [setMu]
      cases h' : (t.co n'.owner).rlocked
      · simp [e2, h', nextUp, h, e1]
      · rw [e2, h']
        simp only [if_true]
        rw [ih n' u, e1, e2]
        simp [nextUp, h, h', List.takeWhile_cons]

theorem fastUnlock_log {s : S} {m : Nat} (hl : (s.mu m).locked = true) (hr : (s.mu m).rlocked ≤ 1) :
    (fastUnlock s m).log = ((nextUp (queue s m)).map (fun e => Ev.grant m e.1 e.2)).reverse ++ s.log := by
  unfold fastUnlock queue
  simp only [hl, Bool.true_eq_false, if_false]
  rw [if_neg (by omega)]
  split
  · rename_i hq; rw [hq]; simp [nextUp, setMu]
  · rename_i hq
    cases hL : s.lists (.muQ m) with
    | nil => exact absurd hL hq
    | cons n q => rw [handoff_log]; rfl

theorem fastUnlock_log0 {s : S} {m : Nat} (h : (s.mu m).locked = false ∨ 1 < (s.mu m).rlocked) : (fastUnlock s m).log = s.log := by
  unfold fastUnlock
  rcases h with h | h
  · simp [h]
  · dsimp only
    by_cases hl : (s.mu m).locked = false
    · rw [if_pos hl]
    · rw [if_neg hl, if_pos h]; rfl

/-! ## A mutex somebody waits for is locked -/

def InvB (s : S) : Prop := ∀ m, s.lists (.muQ m) ≠ [] → (s.mu m).locked = true

theorem handoff_locked {m : Nat} (q : List Node) (t : S) (k : Nat) : ((handoff t m q).mu k).locked = (t.mu k).locked := by
  induction q generalizing t with
  | nil => rfl
  | cons n q ih =>
    unfold handoff
    dsimp only
    have hu : ∀ x, ((note (setMu (schedResume (setList t (.muQ m) q) n.owner) m { (schedResume (setList t (.muQ m) q) n.owner).mu m with rlocked := x }) (.grant m n.owner true)).mu k).locked = (t.mu k).locked := by
      intro x; simp [setMu]; split <;> simp_all
    split
    · split
      · exact hu _
      · split
        · rw [ih]; exact hu _
        · exact hu _
    · simp

theorem fastUnlock_locked {s : S} {m k : Nat} (h : (s.mu k).locked = true) (hq : s.lists (.muQ k) ≠ []) : ((fastUnlock s m).mu k).locked = true := by
  unfold fastUnlock
  dsimp only
  split
  · exact h
  · split
    · simp only [setMu]; split
      · subst_vars; exact h
      · exact h
    · split
      · rename_i e
        simp only [setMu]; split
        · subst_vars; exact absurd e hq
        · exact h
      · rw [handoff_locked]; simp only [setMu]; split
        · subst_vars; exact h
        · exact h

theorem finishLock_lists (s : S) (i m : Nat) (rd : Bool) (dl : Int) (b : Blk) {k : Nat} (h : k ≠ m) : ((finishLock s i m rd dl b).lists (.muQ k)).Sublist (s.lists (.muQ k)) := by
  unfold finishLock
  simp [push, setList, rm, h]

theorem step_locked {s s' : S} {a : Act} (hs : step s a = some s') {m : Nat} (h : (s.mu m).locked = true) (hq : s.lists (.muQ m) ≠ []) : (s'.mu m).locked = true := by
  rcases step_mu hs with ⟨e, _⟩ | ⟨i, c, ha, hc, hm, e⟩ | ⟨i, v, k, dl, ha, hc, hp, hcl, e⟩
  · rw [e]; exact h
  · subst e
    have h1 : ((callSt s i c).mu m).locked = true := h
    have hq1 : (callSt s i c).lists (.muQ m) ≠ [] := hq
    generalize callSt s i c = t at *
    have set : ∀ (u : S) (k : Nat) (x : Mu), u.mu = t.mu → x.locked = true → ((setMu u k x).mu m).locked = true := by
      intro u k x e hx; simp only [setMu]; split
      · exact hx
      · rw [e]; exact h1
    cases c <;> simp [Call.muCall] at hm
    case lock k dl =>
      simp only [doCall]; unfold muLock; dsimp only; (repeat' split)
      · simpa using h1
      · simpa using h1
      · exact set _ _ _ rfl rfl
    case rdlock k dl =>
      simp only [doCall]; unfold muRdlock; dsimp only; (repeat' split)
      · simpa using h1
      · simpa using h1
      · exact set _ _ _ rfl rfl
    case trylock k => simp only [doCall]; unfold muTrylock; split
                      · simpa using h1
                      · exact set _ _ _ rfl rfl
    case tryrdlock k => simp only [doCall]; unfold muTryrdlock; split
                        · simpa using h1
                        · exact set _ _ _ rfl rfl
    case unlock k => simp only [doCall]; rw [muUnlock_mu]; exact fastUnlock_locked (s := note t (.release k i)) h1 hq1
    case cvWait v k dl =>
      simp only [doCall]; unfold cvWait; (repeat' split)
      · simpa using h1
      · simpa using fastUnlock_locked (s := note t (.release k i)) h1 hq1
      · simpa using fastUnlock_locked (s := note t (.release k i)) h1 hq1
  · subst e
    unfold doRelock
    (repeat' split)
    · simp only [retv_mu, note_mu, setMu]; split <;> simp_all
    · simpa using h
    · simpa using h
    · simpa using h

theorem pending_call_step {s s' : S} {c : Call} {i : Nat} (hs : step s (.call c) = some s') (hc : s.sco.cur = some i) : pending i s'.log = some c := by
  obtain ⟨fs, e1, e2⟩ := call_log hs hc
  rw [e1]
  clear e1
  induction fs with
  | nil => simp [pending]
  | cons e fs ih =>
    have h1 := e2 e (by simp)
    have := ih (fun e he => e2 e (by simp [he]))
    cases e <;> first | exact this | (exfalso; simp only [Ev.kind] at h1; cases c <;> simp [callKinds] at h1)

/-- a mutex whose queue is not empty is locked -/
theorem InvB.step {ok} {s s' : S} {a : Act} (h : InvB s) (r : Reach ok s) (r' : Reach ok s') (hs : Rt.step s a = some s') : InvB s' := by
  intro m hq
  by_cases he : s.lists (.muQ m) ≠ []
  · exact step_locked hs (h m he) he
  have he : s.lists (.muQ m) = [] := Classical.not_not.mp he
  obtain ⟨n, hn⟩ := List.exists_mem_of_ne_nil _ hq
  by_cases hA : (∀ c, a ≠ .call c) ∧ (a = .tau → s.sco.cur = none)
  · have := step_sub' hs (L := .muQ m) (by simp) (by simp) hA.1 hA.2
    rw [he] at this
    exact absurd (List.sublist_nil.mp this) hq
  obtain ⟨o, ho, hsub⟩ := step_subO hs (L := .muQ m) (by simp) (by simp)
  have hc : s.sco.cur = some n.owner := by
    have := hsub.subset hn
    rw [he] at this
    exact ho n (by simpa using this)
  have hpl := (reach_invL r').pl _ _ hn
  have hn' : n = .co n.owner := by cases n <;> simp [place] at hpl; rfl
  generalize n.owner = i at *
  subst hn'
  cases a with
  | call c =>
    have hpc := ((pending_call r').mp (pending_call_step hs hc)).1
    obtain ⟨_, _, e⟩ := step_call_of hs hc
    have hmu : ∀ k, (callSt s i c).mu k = s.mu k := fun _ => rfl
    have hls : (callSt s i c).lists (.muQ m) = [] := he
    rcases hpl with ⟨h1, ⟨dl, h2⟩, _⟩ | ⟨h1, ⟨dl, h2⟩, _⟩ | ⟨h1, ⟨v, dl, h2⟩, _⟩
    · rw [hpc] at h2; subst h2
      rw [e] at h1 ⊢
      generalize callSt s i (.lock m dl) = t at *
      simp only [doCall] at h1 ⊢
      unfold muLock at h1 ⊢
      dsimp only at h1 ⊢
      by_cases g1 : dlCode t i dl ≠ OK
      · rw [if_pos g1, pc_retv] at h1; cases h1
      rw [if_neg g1] at h1 ⊢
      by_cases g2 : ((dlClear t i).mu m).locked = true
      · rw [if_pos g2]; simpa using g2
      · rw [if_neg g2, pc_retv] at h1; cases h1
    · rw [hpc] at h2; subst h2
      rw [e] at h1 ⊢
      generalize callSt s i (.rdlock m dl) = t at *
      simp only [doCall] at h1 ⊢
      unfold muRdlock at h1 ⊢
      dsimp only at h1 ⊢
      by_cases g1 : dlCode t i dl ≠ OK
      · rw [if_pos g1, pc_retv] at h1; cases h1
      rw [if_neg g1] at h1 ⊢
      by_cases g2 : rdBusy (dlClear t i) m = true
      · rw [if_pos g2]
        unfold rdBusy at g2
        simp [hls] at g2
        simpa using g2.2
      · rw [if_neg g2, pc_retv] at h1; cases h1
    · rw [hpc] at h2; subst h2
      rw [e] at h1
      exfalso
      simp only [doCall] at h1
      unfold cvWait at h1
      (repeat' split at h1)
      · rw [pc_retv] at h1; cases h1
      · obtain ⟨k, h⟩ := pc_yfsr (fastUnlock (note (callSt s i (.cvWait v m dl)) (.release m i)) m) i 0 .condEnq
        rw [h] at h1; cases h1
      · unfold cvEnq at h1; dsimp only at h1; rw [pc_copause] at h1; cases h1
  | tau =>
    have ht : tauCo s i = some s' := by
      unfold Rt.step at hs; split at hs
      · cases hs
      · simpa [hc] using hs
    rcases hpl with ⟨h1, ⟨dl, h2⟩, _⟩ | ⟨h1, ⟨dl, h2⟩, _⟩ | ⟨h1, ⟨v, dl, h2⟩, _⟩
    · rcases tauCo_blk ht h1 with ⟨h, _⟩ | ⟨h, _⟩ | ⟨h, _⟩ <;> cases h
    · rcases tauCo_blk ht h1 with ⟨h, _⟩ | ⟨h, _⟩ | ⟨h, _⟩ <;> cases h
    · rcases tauCo_blk ht h1 with ⟨h, _⟩ | ⟨_, hp⟩ | ⟨h, _⟩
      · cases h
      · unfold tauCo at ht; rw [hp] at ht; simp only at ht
        split at ht <;> cases ht
        · rename_i v' m' dl' hcl _
          have hcl' : ((doRelock s i m').co i).call = .cvWait v' m' dl' := by
            rw [← hcl]; unfold doRelock; (repeat' split) <;> simp [finishLock, copause_co, push, upd_co, setPc, retv, dlClear]
          rw [hcl'] at h2
          cases h2
          unfold doRelock at h1 ⊢
          by_cases g : (s.mu m).locked = false
          · rw [if_pos g, pc_retv] at h1; cases h1
          · have g' : (s.mu m).locked = true := by simpa using g
            (repeat' split) <;> simp_all
        · rw [hp] at h1; cases h1
      · cases h
  | _ => exact absurd ⟨by simp, by simp⟩ hA

theorem reach_invB {ok} {s : S} (r : Reach ok s) : InvB s := by
  induction r with
  | init a e => intro m h; simp [init] at h
  | step h a ho hs ih => exact ih.step h (.step h a ho hs) hs

/-! ## A release follows its call -/

theorem rel_call {ok} {s : S} (r : Reach ok s) {a b : List Ev} {m i : Nat} (h : s.log = a ++ .release m i :: b) :
    ∃ c b', b = .call i c :: b' ∧ (c = .unlock m ∨ ∃ v dl, c = .cvWait v m dl) := by
  induction r generalizing a with
  | init x y => simp only [init] at h; have := congrArg List.length h; cases a <;> simp at h
  | @step s s' r act hok hs ih =>
    obtain ⟨es, hes, hk⟩ := step_adds hs
    rw [hes] at h
    rcases List.append_eq_append_iff.mp h with ⟨x, h1, h2⟩ | ⟨x, h1, h2⟩
    · exact ih h2
    · cases x with
      | nil => exact ih (a := []) (by simpa using h2.symm)
      | cons y x =>
        simp only [List.cons_append, List.cons.injEq] at h2
        obtain ⟨rfl, h2⟩ := h2
        have hin : Ev.release m i ∈ es := by rw [h1]; simp
        have hkr := hk _ hin
        simp only [Ev.kind] at hkr
        cases act with
        | call c =>
          obtain ⟨j, hc, hx1, hx2, e⟩ := step_call hs
          have main : ∀ k, s'.log = (fastUnlock (note (callSt s j c) (.release k j)) k).log → (c = .unlock k ∨ ∃ v dl, c = .cvWait v k dl) →
              ∃ c b', b = .call i c :: b' ∧ (c = .unlock m ∨ ∃ v dl, c = .cvWait v m dl) := by
            intro k e1 hck
            obtain ⟨gs, e2, e3⟩ := fastUnlock_adds (note (callSt s j c) (.release k j)) k
            rw [e2] at e1
            have e4 : a ++ .release m i :: b = gs ++ .release k j :: .call j c :: s.log := by rw [← h, ← hes, e1]; rfl
            rcases List.append_eq_append_iff.mp e4 with ⟨z, g1, g2⟩ | ⟨z, g1, g2⟩
            · cases z with
              | nil => simp only [List.nil_append, List.cons.injEq, Ev.release.injEq] at g2; obtain ⟨⟨rfl, rfl⟩, rfl⟩ := g2; exact ⟨c, _, rfl, hck⟩
              | cons w z =>
                simp only [List.cons_append, List.cons.injEq] at g2
                obtain ⟨rfl, g2⟩ := g2
                have := e3 (.release m i) (by rw [g1]; simp)
                simp [Ev.kind] at this
            · cases z with
              | nil => simp only [List.nil_append, List.cons.injEq, Ev.release.injEq] at g2; obtain ⟨⟨rfl, rfl⟩, rfl⟩ := g2; exact ⟨c, _, rfl, hck⟩
              | cons w z =>
                simp only [List.cons_append, List.cons.injEq] at g2
                obtain ⟨rfl, g2⟩ := g2
                -- a second release in the same step
                have hlen : es = gs ++ [.release k j, .call j c] := by
                  have : es ++ s.log = (gs ++ [.release k j, .call j c]) ++ s.log := by rw [← hes, e1]; simp [callSt]
                  exact List.append_cancel_right this
                exfalso
                rw [h1] at hlen
                subst g1
                have := congrArg List.length hlen
                cases z with
                | nil => simp only [List.nil_append] at g2; cases g2
                | cons w z =>
                  simp only [List.cons_append, List.cons.injEq] at g2
                  simp at this
          cases c <;> simp [stepKinds, callKinds] at hkr
          case unlock k =>
            exact main k (by rw [e]; simp only [doCall]; rw [muUnlock_log]) (.inl rfl)
          case cvWait v k dl =>
            rw [e] at main
            simp only [doCall] at main
            unfold cvWait at main
            by_cases g : ((callSt s j (.cvWait v k dl)).co j).canceled = true
            · exfalso
              rw [e] at hes
              simp only [doCall] at hes
              unfold cvWait at hes
              rw [if_pos g] at hes
              have : es = [.call j (.cvWait v k dl)] := by
                have : es ++ s.log = [.call j (.cvWait v k dl)] ++ s.log := by rw [← hes]; rfl
                exact List.append_cancel_right this
              rw [this] at hin; simp at hin
            · rw [if_neg g] at main
              exact main k (by split <;> simp) (.inr ⟨v, dl, rfl⟩)
        | tau =>
          exfalso
          simp only [stepKinds] at hkr
          split at hkr
          · unfold pcKinds at hkr; split at hkr <;> simp at hkr
          · unfold mainKinds at hkr; split at hkr <;> simp at hkr
        | _ => simp [stepKinds] at hkr

/-- a call other than `neco_mutex_unlock` and `neco_cond_wait` releases nothing -/
theorem no_release {ok} {s : S} (r : Reach ok s) {i m : Nat} {c : Call} {b : List Ev} (hb : s.log = since i s.log ++ .call i c :: b)
    (h1 : c ≠ .unlock m) (h2 : ∀ v dl, c ≠ .cvWait v m dl) : .release m i ∉ since i s.log := by
  intro h
  obtain ⟨x, y, e⟩ := List.append_of_mem h
  rw [e] at hb
  obtain ⟨c', b', e1, e2⟩ := rel_call r (a := x) (b := y ++ .call i c :: b) (m := m) (i := i) (by rw [hb]; simp)
  cases y with
  | nil =>
    simp only [List.nil_append, List.cons.injEq, Ev.call.injEq, true_and] at e1
    rcases e2 with e2 | ⟨v, dl, e2⟩
    · exact h1 (e1.1.trans e2)
    · exact h2 v dl (e1.1.trans e2)
  | cons w y =>
    simp only [List.cons_append, List.cons.injEq] at e1
    have := since_not (i := i) (l := s.log) (e := w) (by rw [e]; simp)
    rw [e1.1] at this; simp [isCallOf] at this

/-- what comes after a release by `i` in the same call is no release by `i` -/
theorem no_release_after {ok} {s : S} (r : Reach ok s) {i m k : Nat} {x y : List Ev} (e : since i s.log = x ++ .release m i :: y) : .release k i ∉ x := by
  intro h
  obtain ⟨u, w, rfl⟩ := List.append_of_mem h
  have hl : s.log = since i s.log ++ s.log.dropWhile (fun e => !isCallOf i e) := (List.takeWhile_append_dropWhile).symm
  rw [e] at hl
  obtain ⟨c', b', e1, _⟩ := rel_call r (a := u) (m := k) (i := i) (b := w ++ .release m i :: y ++ s.log.dropWhile (fun e => !isCallOf i e)) (by simpa using hl)
  cases w with
  | nil => simp at e1
  | cons z w =>
    simp only [List.cons_append, List.cons.injEq] at e1
    have := since_not (i := i) (l := s.log) (e := z) (by rw [e]; simp)
    rw [e1.1] at this; simp [isCallOf] at this

/-- a coroutine that was given a mutex and did not release it since holds it -/
theorem mem_holders {m i : Nat} {rd : Bool} {a b : List Ev} (h : .release m i ∉ a) (hg : .grant m i rd ∈ a) : (i, rd) ∈ holders m (a ++ b) := by
  induction a with
  | nil => cases hg
  | cons e a ih =>
    simp only [List.mem_cons, not_or] at h
    by_cases he : e = .grant m i rd
    · subst he; simp [holders]
    · have hg' : .grant m i rd ∈ a := by simpa [Ne.symm he] using hg
      have := ih h.2 hg'
      simp only [List.cons_append]
      cases e <;> simp only [holders] <;> first | exact this | skip
      case grant => split
                    · exact List.mem_cons_of_mem _ this
                    · exact this
      case release k j =>
        split
        · rename_i hk
          subst hk
          have hj : j ≠ i := fun e => h.1 (by rw [e])
          exact (List.mem_eraseP_of_neg (by simpa using Ne.symm hj)).mpr this
        · exact this

end Neco.Rt
