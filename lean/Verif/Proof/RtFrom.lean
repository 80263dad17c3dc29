import Verif.Proof.RtOut
/-!
# From a return to the step that made the call
-/
namespace Neco.Rt
open Neco.Err

/-- the step that made the current call of `j`, and what it decided -/
def From (ok : S → Act → Prop) (j : Nat) (s : S) : Prop :=
  ∃ s0 s1 es, Reach ok s0 ∧ ok s0 (.call (s.co j).call) ∧ s0.sco.cur = some j ∧ Rt.step s0 (.call (s.co j).call) = some s1 ∧ s.log = es ++ s1.log ∧
    (∀ e ∈ es, isCallOf j e = false) ∧ (∀ w, outPc (s1.co j).pc = some w → (s.co j).pc.exiting = true ∨ outPc (s.co j).pc = some w ∧ es.filter (delivTo j) = []) ∧
    (∀ w, (s1.co j).pc = .ret w → (s.co j).pc.exiting = true ∨ (s.co j).pc = .ret w ∧ (s.co j).rdat = (s1.co j).rdat) ∧
    (s.fault = false → s1.fault = false)

theorem From.ext {ok} {j : Nat} {s t : S} {fs : List Ev} (h : From ok j s) (hft : s.fault = false) (hc : (t.co j).call = (s.co j).call) (hl : t.log = fs ++ s.log)
    (hf : ∀ e ∈ fs, isCallOf j e = false) (h1 : (s.co j).pc.exiting = true → (t.co j).pc.exiting = true)
    (h2 : ∀ w, outPc (s.co j).pc = some w → (t.co j).pc.exiting = true ∨ outPc (t.co j).pc = some w ∧ fs.filter (delivTo j) = [])
    (h3 : ∀ w, (s.co j).pc = .ret w → (t.co j).pc.exiting = true ∨ (t.co j).pc = .ret w ∧ (t.co j).rdat = (s.co j).rdat) : From ok j t := by
  obtain ⟨s0, s1, es, e1, e2, e3, e4, e5, e6, e7, e8, e9⟩ := h
  refine ⟨s0, s1, fs ++ es, e1, by rw [hc]; exact e2, e3, by rw [hc]; exact e4, by rw [hl, e5, List.append_assoc], ?_, ?_, ?_, fun _ => e9 hft⟩
  · intro e he
    rcases List.mem_append.mp he with he | he
    · exact hf e he
    · exact e6 e he
  · intro w hw
    rcases e7 w hw with h | ⟨h, g⟩
    · exact .inl (h1 h)
    · exact (h2 w h).imp id (fun ⟨x, y⟩ => ⟨x, by rw [List.filter_append, y, g]; rfl⟩)
  · intro w hw
    rcases e8 w hw with h | ⟨h, g⟩
    · exact .inl (h1 h)
    · exact (h3 w h).imp id (fun ⟨x, y⟩ => ⟨x, y.trans g⟩)

theorem From.same {ok} {j : Nat} {s t : S} {fs : List Ev} (h : From ok j s) (hft : s.fault = false) (hc : t.co j = s.co j) (hl : t.log = fs ++ s.log)
    (hf : ∀ e ∈ fs, isCallOf j e = false) (hd : fs.filter (delivTo j) = []) : From ok j t :=
  h.ext hft (by rw [hc]) hl hf (by rw [hc]; exact id) (by rw [hc]; exact fun _ h => .inr ⟨h, hd⟩) (by rw [hc]; exact fun _ h => .inr ⟨h, rfl⟩)

theorem deliv_lg (j : Nat) (s : S) : s.log.filter (delivTo j) = (lg j s).filter (delivTo j) := by
  unfold lg
  rw [List.filter_filter]
  congr 1
  funext e
  cases e <;> simp [delivTo, Ev.about]

theorem deliv_leave (s : S) (i j : Nat) : (leave s i).filter (delivTo j) = [] := by
  unfold leave; (repeat' split) <;> simp [delivTo]

theorem Mvs.deliv {j : Nat} {s t : S} (m : Mvs j s t) {v : Int} (hp : outPc (s.co j).pc = some v) : t.log.filter (delivTo j) = s.log.filter (delivTo j) := by
  rw [deliv_lg, deliv_lg]
  induction m with
  | refl => rfl
  | head a g ih =>
    have h1 := (Mvs.one a).pc.1
    rw [ih (by rw [h1]; exact hp)]
    cases a
    case wdone _ _ _ _ _ _ log _ => rw [log, List.filter_cons, List.filter_append, deliv_leave]; simp [delivTo]
    case take h _ _ => rw [h] at hp; cases hp
    case bcast h _ _ => rw [h] at hp; cases hp
    case takeCase h _ _ _ => rw [h] at hp; cases hp
    case bcastCase h _ _ _ => rw [h] at hp; cases hp
    case ready fd w es hn he hes d =>
      rw [d.log, List.filter_append]
      have : es.filter (delivTo j) = [] := by
        rw [List.filter_eq_nil_iff]; intro e h; rw [hes e h]; simp [delivTo]
      rw [this]; rfl
    all_goals (rename_i d; rw [d.log]; simp [delivTo])

/-- the events added by a step leave the deliveries alone -/
theorem deliv_new {j : Nat} {s t : S} {es : List Ev} (hl : t.log = es ++ s.log) (h : t.log.filter (delivTo j) = s.log.filter (delivTo j)) : es.filter (delivTo j) = [] := by
  rw [hl, List.filter_append] at h
  have := congrArg List.length h
  rw [List.length_append] at this
  exact List.eq_nil_of_length_eq_zero (by omega)

/-- and so does a step of a coroutine whose result is decided -/
theorem tauCo_deliv {s s' : S} {j : Nat} {w : Int} (h : tauCo s j = some s') (h1 : outPc (s.co j).pc = some w) : s'.log.filter (delivTo j) = s.log.filter (delivTo j) := by
  unfold tauCo at h
  split at h <;> rename_i hq <;> rw [hq] at h1
  · cases h
  · cases h
  · cases h
  · cases h
    unfold doRet; split <;> simp [delivTo]
  · rename_i n a
    (repeat' split at h) <;> cases h <;> simp [delivTo]
  · cases h; simp
  · rename_i a
    cases a <;> simp [outPc] at h1
    cases h; simp [doAft]
  · cases h; simp
  all_goals simp [outPc] at h1

/-- once decided, a result stays, unless the coroutine is terminated or has returned -/
theorem tauCo_out2 {s s' : S} {j : Nat} {w : Int} (h : tauCo s j = some s') (h1 : outPc (s.co j).pc = some w) :
    (s'.co j).pc.exiting = true ∨ outPc (s'.co j).pc = some w ∨ (s'.co j).call = .none := by
  unfold tauCo at h
  split at h <;> rename_i hq <;> rw [hq] at h1
  · cases h
  · cases h
  · cases h
  · cases h
    unfold doRet; split
    · rw [pc_setPc]; exact .inl rfl
    · right; right; simp [upd_co]
  · rename_i n a
    cases a <;> simp [outPc] at h1
    subst h1
    (repeat' split at h) <;> cases h
    · rw [pc_setPc]; exact .inl rfl
    · rw [pc_setPc]; exact .inr (.inl rfl)
    · rw [pc_coyield]; exact .inr (.inl rfl)
  · rename_i n a
    cases a <;> simp [outPc] at h1
    subst h1
    cases h; rw [pc_coyield]; exact .inr (.inl rfl)
  · rename_i a
    cases a <;> simp [outPc] at h1
    subst h1
    cases h; simp only [doAft, pc_retv]; exact .inr (.inl rfl)
  · cases h; rw [pc_retv]; cases h1; exact .inr (.inl rfl)
  all_goals simp [outPc] at h1

theorem From.step {ok} {s s' : S} {a : Act} {j : Nat} (h : (s.co j).call ≠ .none → From ok j s) (r : Reach ok s) (hok : ok s a) (hs : Rt.step s a = some s')
    (hn' : (s'.co j).call ≠ .none) : From ok j s' := by
  have hw := reach_scoWF r
  have hft := step_nofault hs
  by_cases hj : s.sco.cur = some j
  · by_cases hc : ∃ c, a = .call c
    · obtain ⟨c, rfl⟩ := hc
      have hcl : (s'.co j).call = c := by
        obtain ⟨hu, _, rfl⟩ := step_call_of hs hj
        rw [doCall_call (s := callSt s j c) c (cur_le hw hj).2]; simp [callSt, upd_co]
      exact ⟨s, s', [], r, by rw [hcl]; exact hok, hj, by rw [hcl]; exact hs, rfl, by simp, fun _ h => .inr ⟨h, rfl⟩, fun _ h => .inr ⟨h, rfl⟩, id⟩
    · have hnc : ∀ c, a = .call c → s.sco.cur ≠ some j := fun c e => absurd ⟨c, e⟩ hc
      obtain ⟨es, hes, hes2⟩ := step_noCall hs hnc
      have hst := step_stat hw hs j
      have hs0 := hs
      unfold Rt.step at hs
      split at hs
      · cases hs
      have quiet : (s'.co j) = s.co j → s'.log.filter (delivTo j) = s.log.filter (delivTo j) → From ok j s' :=
        fun e hd => (h (by rw [← e]; exact hn')).same hft e hes hes2 (deliv_new hes hd)
      cases a with
      | call c => exact absurd ⟨c, rfl⟩ hc
      | finish =>
        simp only [hj] at hs
        split at hs <;> cases hs
        rename_i hp
        exfalso
        have hN := (reach_invN r (step_nofault hs0) j).ft
        unfold fits at hN; rw [hp] at hN
        exact hn' (by simpa [setPc, upd_co] using hN)
      | tau =>
        simp only [hj] at hs
        have hcl : (s'.co j).call = (s.co j).call := by
          rcases hst with ⟨h3, h4⟩ | ⟨c, ha, hc, hp, h3⟩ | ⟨i, g, ha, hi', hj, h3⟩ | ⟨x, ha, hc, hp, h3⟩ | ⟨x, q, ha, hc, hp, hq, h3⟩ | ⟨x, y, ha, hc, hp, h3⟩
          · exact stat_call h3
          · cases ha
          · simp at ha
          · unfold tauCo at hs; rw [hp] at hs; simp at hs; subst hs
            unfold doRet at hn' ⊢; split at hn'
            · rename_i hx; rw [if_pos hx]; simp [setPc, upd_co]
            · simp [upd_co] at hn'
          · exact (stat_call h3).trans rfl
          · exact (stat_call h3).trans rfl
        refine (h (by rw [← hcl]; exact hn')).ext hft hcl hes hes2 (tauCo_exiting hs) ?_ ?_
        · intro w hw'
          rcases tauCo_out2 hs hw' with h | h | h
          · exact .inl h
          · exact .inr ⟨h, deliv_new hes (tauCo_deliv hs hw')⟩
          · exact absurd h hn'
        · intro w hw'
          unfold tauCo at hs; rw [hw'] at hs; simp at hs; subst hs
          unfold doRet at hn' ⊢; split
          · rw [pc_setPc]; exact .inl rfl
          · rename_i hx; rw [if_neg hx] at hn'; simp [upd_co] at hn'
      | submit ok' =>
        simp only [hj] at hs
        split at hs
        · rename_i hp
          split at hs <;> cases hs
          · refine (h (by simpa [setPc, upd_co] using hn')).ext hft (by simp [setPc, upd_co]) hes hes2 ?_ ?_ ?_
            · rw [hp]; intro e; cases e
            · rw [hp]; intro _ e; cases e
            · rw [hp]; intro _ e; cases e
          · exact quiet rfl rfl
        · cases hs
      | events evs =>
        simp only at hs
        split at hs
        · rename_i h1; rw [hj] at h1; simp at h1
        · cases hs
      | clock t => simp only at hs; split at hs <;> cases hs; exact quiet rfl rfl
      | signal n => simp only at hs; (repeat' split at hs) <;> cases hs <;> exact quiet rfl (by simp [delivTo])
      | wdone k => simp only at hs; split at hs <;> cases hs; exact quiet rfl (by simp [delivTo, deliv_leave])
  · by_cases hn : (a = .call .start ∨ a = .call .genStart) ∧ j = s.sco.nextId + 1
    · obtain ⟨ha, rfl⟩ := hn
      obtain ⟨i, g, _, e1, _⟩ := start_new ha hs
      rw [e1, (newCo_pc s i g).2] at hn'; exact absurd rfl hn'
    · have hm := step_other (reach_invL r) (reach_invC r) hs hj (fun ha e => hn ⟨ha, e⟩) (((reach_invF r).cf j).evU)
      obtain ⟨es, hes, hes2⟩ := step_noCall hs (fun _ _ => hj)
      refine (h (by rw [← hm.pc.2]; exact hn')).ext hft hm.pc.2 hes hes2 ?_ ?_ ?_
      · rw [hm.pc.1]; exact id
      · rw [hm.pc.1]; exact fun w hw => .inr ⟨hw, deliv_new hes (hm.deliv hw)⟩
      · rw [hm.pc.1]; exact fun w hw => .inr ⟨hw, hm.rdat hw⟩

theorem reach_from {ok} {s : S} (r : Reach ok s) (j : Nat) (hn : (s.co j).call ≠ .none) : From ok j s := by
  induction r with
  | init a e =>
    have : ((init a e).co j).call = .none := by unfold init; dsimp only; split <;> rfl
    exact absurd this hn
  | step r a hok hs ih => exact From.step ih r hok hs hn

/-- for a call about to return: the state in which it was made, the state right after, and what was decided -/
theorem returns_from' {ok} {s : S} {i : Nat} {c : Call} {v : Int} {d : Msg} {b : List Ev} (r : Reach ok s) (h : Returns s i c v d)
    (hb : s.log = since i s.log ++ .call i c :: b) :
    ∃ s0 s1 es fs, Reach ok s0 ∧ s0.log = b ∧ s0.sco.cur = some i ∧ (s0.co i).pc = .user ∧ step s0 (.call c) = some s1 ∧ s1 = doCall (callSt s0 i c) i c ∧ s0.fault = false ∧ s1.fault = false ∧
      s.log = es ++ s1.log ∧ since i s.log = es ++ fs ∧ s1.log = fs ++ .call i c :: b ∧
      (∀ w, outPc (s1.co i).pc = some w → v = w ∧ es.filter (delivTo i) = []) ∧ ∀ w, (s1.co i).pc = .ret w → v = w ∧ d = (s1.co i).rdat := by
  obtain ⟨h1, h2, h3, h4, h5⟩ := h.elim
  have hcd := returns_codes r h
  have hn : (s.co i).call ≠ .none := by rw [h3]; intro e; rw [e] at hcd; exact hcd
  obtain ⟨s0, s1, es, r0, _, hc, hs, hl, he, e7, e8, e9⟩ := reach_from r i hn
  rw [h3] at hs
  obtain ⟨fs, g1, g2, g3⟩ := since_step hs hc hl he
  have hbb := (call_unique hb g3).2
  subst hbb
  have hg := step_guard hs
  obtain ⟨hu, _, e⟩ := step_call_of hs hc
  refine ⟨s0, s1, es, fs, r0, rfl, hc, hu, hs, e, step_nofault hs, e9 (step_nofault h.choose_spec.1), hl, g2, g1, ?_, ?_⟩
  · intro w hw
    rcases e7 w hw with h | ⟨h, g⟩ <;> rw [h2] at h
    · cases h
    · cases h; exact ⟨rfl, g⟩
  · intro w hw
    rcases e8 w hw with h | ⟨h, g⟩
    · rw [h2] at h; cases h
    · rw [h2] at h; cases h; exact ⟨rfl, h4.symm.trans g⟩

theorem returns_from {ok} {s : S} {i : Nat} {c : Call} {v : Int} {d : Msg} {b : List Ev} (r : Reach ok s) (h : Returns s i c v d)
    (hb : s.log = since i s.log ++ .call i c :: b) :
    ∃ s0 s1 es fs, Reach ok s0 ∧ s0.log = b ∧ s0.sco.cur = some i ∧ (s0.co i).pc = .user ∧ step s0 (.call c) = some s1 ∧ s1 = doCall (callSt s0 i c) i c ∧ s0.fault = false ∧ s1.fault = false ∧
      s.log = es ++ s1.log ∧ since i s.log = es ++ fs ∧ s1.log = fs ++ .call i c :: b ∧
      (∀ w, outPc (s1.co i).pc = some w → v = w) ∧ ∀ w, (s1.co i).pc = .ret w → v = w ∧ d = (s1.co i).rdat := by
  obtain ⟨s0, s1, es, fs, g1, g2, g3, g4, g5, g6, g7, g8, g9, g10, g11, g12, g13⟩ := returns_from' r h hb
  exact ⟨s0, s1, es, fs, g1, g2, g3, g4, g5, g6, g7, g8, g9, g10, g11, fun w hw => (g12 w hw).1, g13⟩

end Neco.Rt
