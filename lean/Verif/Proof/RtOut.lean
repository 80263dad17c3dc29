import Verif.Proof.RtSwitch
/-!
# The step that decides the result of a call, possibly before some yields
-/
namespace Neco.Rt
open Neco.Err

/-- the value a coroutine is going to return, once decided -/
def outPc : Pc → Option Int
  | .ret v => some v
  | .yck _ (.ret v) => some v
  | .yld _ (.ret v) => some v
  | .go (.ret v) => some v
  | .selGot k _ _ => some k
  | _ => none

/-- the result was decided by the step that made the call -/
def Early (ok : S → Act → Prop) (j : Nat) (c : Call) (v : Int) (l : List Ev) : Prop :=
  ∃ s0 s1 es, Reach ok s0 ∧ ok s0 (.call c) ∧ s0.sco.cur = some j ∧ Rt.step s0 (.call c) = some s1 ∧ outPc (s1.co j).pc = some v ∧
    l = es ++ s1.log ∧ ∀ e ∈ es, isCallOf j e = false
/-- the result was decided by a later step of the coroutine -/
def Late (ok : S → Act → Prop) (j : Nat) (c : Call) (v : Int) (l : List Ev) : Prop :=
  ∃ s0 s1 es, Reach ok s0 ∧ s0.sco.cur = some j ∧ Rt.step s0 .tau = some s1 ∧ (s0.co j).call = c ∧ outPc (s0.co j).pc = none ∧ outPc (s1.co j).pc = some v ∧
    l = es ++ s1.log ∧ ∀ e ∈ es, isCallOf j e = false

theorem Early.ext {ok} {j : Nat} {c : Call} {v : Int} {l fs : List Ev} (h : Early ok j c v l) (hf : ∀ e ∈ fs, isCallOf j e = false) : Early ok j c v (fs ++ l) := by
  obtain ⟨s0, s1, es, h1, h2, h3, h4, h5, h6, h7⟩ := h
  refine ⟨s0, s1, fs ++ es, h1, h2, h3, h4, h5, by rw [h6, List.append_assoc], fun e he => ?_⟩
  rcases List.mem_append.mp he with he | he
  · exact hf e he
  · exact h7 e he
theorem Late.ext {ok} {j : Nat} {c : Call} {v : Int} {l fs : List Ev} (h : Late ok j c v l) (hf : ∀ e ∈ fs, isCallOf j e = false) : Late ok j c v (fs ++ l) := by
  obtain ⟨s0, s1, es, h1, h2, h3, h4, h5, h6, h7, h8⟩ := h
  refine ⟨s0, s1, fs ++ es, h1, h2, h3, h4, h5, h6, by rw [h7, List.append_assoc], fun e he => ?_⟩
  rcases List.mem_append.mp he with he | he
  · exact hf e he
  · exact h8 e he

def InvY (ok : S → Act → Prop) (j : Nat) (s : S) : Prop :=
  ∀ v, outPc (s.co j).pc = some v → Early ok j (s.co j).call v s.log ∨ Late ok j (s.co j).call v s.log

/-- once decided, the value does not change -/
theorem tauCo_out {s s' : S} {j : Nat} {v w : Int} (h : tauCo s j = some s') (h1 : outPc (s.co j).pc = some w) (h2 : outPc (s'.co j).pc = some v) : v = w := by
  unfold tauCo at h
  split at h <;> rename_i hq <;> rw [hq] at h1
  · cases h
  · cases h
  · cases h
  · cases h
    unfold doRet at h2; split at h2
    · rw [pc_setPc] at h2; cases h2
    · simp [upd_co, outPc] at h2
  · rename_i n a
    cases a <;> simp [outPc] at h1
    subst h1
    (repeat' split at h) <;> cases h
    · rw [pc_setPc] at h2; cases h2
    · rw [pc_setPc] at h2; cases h2; rfl
    · rw [pc_coyield] at h2; cases h2; rfl
  · rename_i n a
    cases a <;> simp [outPc] at h1
    subst h1
    cases h; rw [pc_coyield] at h2; cases h2; rfl
  · rename_i a
    cases a <;> simp [outPc] at h1
    subst h1
    cases h; simp only [doAft, pc_retv] at h2; cases h2; rfl
  · cases h; rw [pc_retv] at h2; cases h1; cases h2; rfl
  all_goals simp [outPc] at h1

theorem InvY.step {ok} {s s' : S} {a : Act} {j : Nat} (h : InvY ok j s) (r : Reach ok s) (hok : ok s a) (hs : Rt.step s a = some s') : InvY ok j s' := by
  have hw := reach_scoWF r
  intro v hv
  by_cases hj : s.sco.cur = some j
  · by_cases hc : ∃ c, a = .call c
    · obtain ⟨c, rfl⟩ := hc
      have hcl : (s'.co j).call = c := by
        obtain ⟨hu, _, rfl⟩ := step_call_of hs hj
        rw [doCall_call (s := callSt s j c) c (cur_le hw hj).2]; simp [callSt, upd_co]
      rw [hcl]
      exact .inl ⟨s, s', [], r, hok, hj, hs, hv, rfl, by simp⟩
    · have hnc : ∀ c, a = .call c → s.sco.cur ≠ some j := fun c e => absurd ⟨c, e⟩ hc
      obtain ⟨es, hes, hes2⟩ := step_noCall hs hnc
      have hst := step_stat hw hs j
      have hs0 := hs
      unfold Rt.step at hs
      split at hs
      · cases hs
      have quiet : (s'.co j) = s.co j → Early ok j (s'.co j).call v s'.log ∨ Late ok j (s'.co j).call v s'.log := by
        intro e
        rw [e] at hv ⊢
        rw [hes]; exact (h v hv).imp (·.ext hes2) (·.ext hes2)
      cases a with
      | call c => exact absurd ⟨c, rfl⟩ hc
      | finish =>
        simp only [hj] at hs
        split at hs <;> cases hs
        rw [pc_setPc] at hv; cases hv
      | tau =>
        simp only [hj] at hs
        have hcl : (s'.co j).call = (s.co j).call := by
          rcases hst with ⟨h3, h4⟩ | ⟨c, ha, hc, hp, h3⟩ | ⟨i, g, ha, hi', hj, h3⟩ | ⟨x, ha, hc, hp, h3⟩ | ⟨x, q, ha, hc, hp, hq, h3⟩ | ⟨x, y, ha, hc, hp, h3⟩
          · exact stat_call h3
          · cases ha
          · simp at ha
          · exfalso
            unfold tauCo at hs; rw [hp] at hs; simp at hs; subst hs
            unfold doRet at hv; split at hv
            · rw [pc_setPc] at hv; cases hv
            · simp [upd_co, outPc] at hv
          · exact (stat_call h3).trans rfl
          · exact (stat_call h3).trans rfl
        cases hx : outPc (s.co j).pc with
        | some w =>
          have := tauCo_out hs hx hv; subst this
          rw [hcl, hes]; exact (h v hx).imp (·.ext hes2) (·.ext hes2)
        | none => exact .inr ⟨s, s', [], r, hj, hs0, hcl.symm, hx, hv, rfl, by simp⟩
      | submit ok' =>
        simp only [hj] at hs
        split at hs
        · rename_i hp
          split at hs <;> cases hs
          · simp only [pc_setPc] at hv; cases hv
          · simp only [hp] at hv; cases hv
        · cases hs
      | events evs =>
        simp only at hs
        split at hs
        · rename_i h1; rw [hj] at h1; simp at h1
        · cases hs
      | clock t => simp only at hs; split at hs <;> cases hs; exact quiet rfl
      | signal n => simp only at hs; (repeat' split at hs) <;> cases hs <;> exact quiet rfl
      | wdone k => simp only at hs; split at hs <;> cases hs; exact quiet rfl
  · by_cases hn : (a = .call .start ∨ a = .call .genStart) ∧ j = s.sco.nextId + 1
    · obtain ⟨ha, rfl⟩ := hn
      obtain ⟨i, g, _, e1, _⟩ := start_new ha hs
      rw [e1, (newCo_pc s i g).1] at hv; cases hv
    · have hm := step_other (reach_invL r) (reach_invC r) hs hj (fun ha e => hn ⟨ha, e⟩) (((reach_invF r).cf j).evU)
      obtain ⟨es, hes, hes2⟩ := step_noCall hs (fun _ _ => hj)
      rw [hm.pc.1] at hv
      rw [hm.pc.2, hes]
      exact (h v hv).imp (·.ext hes2) (·.ext hes2)

theorem reach_invY {ok} {s : S} (r : Reach ok s) (j : Nat) : InvY ok j s := by
  induction r with
  | init a e =>
    intro v hv
    have : ((init a e).co j).pc = .user := by unfold init; dsimp only; split <;> rfl
    rw [this] at hv; cases hv
  | step r a hok hs ih => exact ih.step r hok hs

theorem returns_out {ok} {s : S} {i : Nat} {c : Call} {v : Int} {d : Msg} (r : Reach ok s) (h : Returns s i c v d) : Early ok i c v s.log ∨ Late ok i c v s.log := by
  obtain ⟨h1, h2, h3, h4, h5⟩ := h.elim
  have := reach_invY r i v (by rw [h2]; rfl)
  rwa [h3] at this

/-- how a later step of the running coroutine can decide a result -/
inductive LateBy (s : S) (j : Nat) : Prop
  | work (h : (s.co j).pc = .workWait) (hc : (s.co j).call = .work)
  | blk (b : Blk) (dl : Int) (h : (s.co j).pc = .blk b) (hc : BlkC b (s.co j).call dl)
  | cancel (t : Nat) (dl : Int) (h : (s.co j).pc = .cancelTry) (hc : (s.co j).call = .cancel t dl)
  | relock (q m : Nat) (dl : Int) (h : (s.co j).pc = .relock) (hc : (s.co j).call = .cvWait q m dl)

theorem late_by {ok} {s s' : S} {j : Nat} {v : Int} (r : Reach ok s) (hc : s.sco.cur = some j) (hs : step s .tau = some s') (hp : outPc (s'.co j).pc = some v)
    (hn : outPc (s.co j).pc = none) : LateBy s j := by
  have hN := (reach_invN r (step_nofault hs) j).ft
  have hF := (reach_invF r).cf j
  have hg := step_guard hs
  unfold step at hs; rw [if_neg hg] at hs; simp only [hc] at hs
  unfold fits at hN
  have hs0 := hs
  unfold tauCo at hs
  split at hs <;> rename_i hq
  · cases hs
  · cases hs
  · cases hs
  · rw [hq] at hn; cases hn
  · rename_i n a
    (repeat' split at hs) <;> cases hs
    · rw [pc_setPc] at hp; cases hp
    · rw [pc_setPc] at hp; cases a <;> simp [outPc] at hp; rw [hq] at hn; cases hn
    · rw [pc_coyield] at hp; cases a <;> simp [outPc] at hp; rw [hq] at hn; cases hn
  · rename_i n a
    cases hs; rw [pc_coyield] at hp; cases a <;> simp [outPc] at hp; rw [hq] at hn; cases hn
  · cases hs
    rename_i a
    cases a with
    | ret w => rw [hq] at hn; cases hn
    | condEnq =>
      simp only [doAft] at hp
      split at hp
      · unfold cvEnq at hp; rw [pc_copause] at hp; cases hp
      · exact absurd hp (by rw [show (({ s with fault := true } : S).co j).pc = _ from hq]; simp [outPc])
    | genRel x y =>
      simp only [doAft] at hp
      split at hp
      · rw [pc_setPc] at hp; cases hp
      · exact absurd hp (by rw [show (({ s with fault := true } : S).co j).pc = _ from hq]; simp [outPc])
    | exitTail x y =>
      simp only [doAft] at hp
      split at hp
      · rw [(pc_yfsr ..).choose_spec] at hp; cases hp
      · rw [pc_setPc] at hp; cases hp
    | fin x => simp [doAft, doFin, setPc, upd_co, outPc] at hp
  · rw [hq] at hn; cases hn
  · obtain ⟨dl, h1, _⟩ := hF.bc _ hq; exact .blk _ dl hq h1
  · split at hs <;> cases hs
    · rename_i hx; exact .cancel _ _ hq hx
    · exact absurd hp (by rw [show (({ s with fault := true } : S).co j).pc = _ from hq]; simp [outPc])
  · split at hs <;> cases hs
    · rename_i hx; exact .relock _ _ _ hq hx
    · exact absurd hp (by rw [show (({ s with fault := true } : S).co j).pc = _ from hq]; simp [outPc])
  · rw [hq] at hN; exact .work hq hN
  · exfalso
    have := tauCo_exiting hs0 (by rw [hq]; rfl)
    cases hx : (s'.co j).pc <;> rw [hx] at this hp <;> simp [Pc.exiting, outPc] at this hp
    all_goals (rename_i a; cases a <;> simp [Pc.exiting, Aft.exiting, outPc] at this hp)

/-- the calls that never wait, even if they yield: the result is decided when they are made -/
theorem returns_early {ok} {s : S} {i : Nat} {c : Call} {v : Int} {d : Msg} (r : Reach ok s) (h : Returns s i c v d)
    (hb : ∀ b dl, ¬ BlkC b c dl) (h1 : c ≠ .work) (h2 : ∀ t dl, c ≠ .cancel t dl) (h3 : ∀ q m dl, c ≠ .cvWait q m dl) : Early ok i c v s.log := by
  rcases returns_out r h with h | ⟨s0, s1, es, r0, hc, hs, hcl, ho, ho', _⟩
  · exact h
  · exfalso
    cases late_by r0 hc hs ho' ho with
    | work h hc => exact h1 (hcl.symm.trans hc)
    | blk b dl h hc => rw [hcl] at hc; exact hb b dl hc
    | cancel t dl h hc => exact h2 t dl (hcl.symm.trans hc)
    | relock q m dl h hc => exact h3 q m dl (hcl.symm.trans hc)

end Neco.Rt
