import Verif.Proof.RtOwed
/-!
# No cancelation is lost: the invariants
-/
namespace Neco.Rt
open Neco.Err

/-- the coroutine is marked as canceled, or about to be told -/
def Hold (k : Co) : Prop := (k.canceled = true ∧ NoCv k.call) ∨ k.pc = .ret CANCELED

theorem step_tau {s s' : S} {j : Nat} (hs : step s .tau = some s') (hj : s.sco.cur = some j) : tauCo s j = some s' := by
  unfold step at hs; split at hs
  · cases hs
  · simpa [hj] using hs

/-- what a step writes about `j` -/
theorem owedQ_step {s s' : S} {a : Act} {j : Nat} (hs : step s a = some s') (h : owedQ j s'.log = true) :
    owedQ j s.log = true ∨ inCond j s.log = false ∧ ∃ i es, rl s' = es ++ rl s ∧ .cancel i j ∈ es := by
  obtain ⟨es, h1, h2⟩ := step_rl hs
  rw [← owedQ_rl, h1] at h
  rw [← owedQ_rl, ← inCond_filter]
  show _ ∨ inCond j (rl s) = false ∧ _
  have key : ∀ e, es = [e] → (∀ i, e ≠ .cancel i j) → owedQ j (es ++ rl s) = true → owedQ j (rl s) = true := by
    intro e he hn h
    subst he
    cases e <;> simp [owedQ] at h ⊢ <;> first | exact h | exact h.2 | skip
    rcases h with h | h
    · exact absurd rfl (h.1 ▸ hn _)
    · exact h
  cases h2 with
  | tau i hc es h2 =>
    cases h2 with
    | cancel id dl hp hc hid he =>
      by_cases e : id = j
      · subst e
        simp [owedQ] at h
        rcases h with h | h
        · exact .inr ⟨h, i, _, h1, List.mem_cons_self⟩
        · exact .inl h
      · exact .inl (key _ rfl (by intro k e'; injection e' with _ e'; exact e e') h)
    | nil => exact .inl h
    | _ => exact .inl (key _ rfl (by simp) h)
  | nil => exact .inl h
  | start c i hc hp hcc => simp [owedQ] at h; exact .inl h.2
  | cpop i hc hp x q hq => simp [owedQ] at h; exact .inl h
  | _ => exact .inl (key _ rfl (by simp) h)

theorem resume_notPaused (x : Sco) (j : Nat) : j ∉ (x.resume j).paused := by
  unfold Sco.resume; split
  · simp [Sco.wake]
  · assumption

/-- the canceled coroutine is marked -/
theorem cancel_marks {s s' : S} {a : Act} {i j : Nat} {es : List Ev} (hs : step s a = some s') (h1 : rl s' = es ++ rl s) (he : .cancel i j ∈ es) :
    (s'.co j).canceled = true ∧ j ∉ s'.sco.paused ∧ s.sco.cur = some i ∧ (∀ c, a ≠ .call c) := by
  obtain ⟨es', h1', h2⟩ := step_rl hs
  rw [h1] at h1'
  have := List.append_cancel_right h1'
  subst this
  cases h2 with
  | tau k hc es h2 =>
    cases h2 <;> simp at he
    rename_i id dl hp hcl hid hen
    obtain ⟨rfl, rfl⟩ := he
    have ht := step_tau hs hc
    unfold tauCo at ht; rw [hp, hcl] at ht; simp only [Option.some.injEq] at ht
    subst ht
    unfold doCancel at h1 ⊢
    rw [if_neg (by simpa using hid)] at h1 ⊢
    split at h1
    · simp at h1
    · rename_i hd
      rw [if_neg hd]
      have hen' : ((dlClear s i).co j).enabled = true := by rw [dlClear_co]; (split <;> first | exact hen | (rename_i e; subst e; exact hen))
      dsimp only
      rw [if_pos hen']
      refine ⟨by simp only [scoResume, setPc_co, note_co, upd_co, if_true]; split <;> simp_all, ?_, hc, by simp⟩
      simp only [scoResume]
      exact resume_notPaused _ _
  | _ => simp at he

theorem call_keep {s s' : S} {a : Act} {j : Nat} (hw : Sco.WF s.sco) (hs : step s a = some s') (ha : (∀ c, a ≠ .call c) ∨ s.sco.cur ≠ some j) :
    (s'.co j).call = (s.co j).call ∨ (s'.co j).call = .none := by
  cases step_stat hw hs j with
  | same h _ => exact .inl (stat_call h)
  | call c h1 h2 _ _ =>
    rcases ha with ha | ha
    · exact absurd h1 (ha c)
    · exact absurd h2 ha
  | new i g _ _ _ h => rw [h]; exact .inr (newCo_pc s i g).2
  | ret v _ _ _ h => exact .inr (stat_call h)
  | clean x q _ _ _ _ h => exact .inl (congrArg (·.1) h)
  | genRel x y _ _ _ h => exact .inl (congrArg (·.1) h)

theorem noCv_keep {s s' : S} {a : Act} {j : Nat} (hw : Sco.WF s.sco) (hs : step s a = some s') (ha : (∀ c, a ≠ .call c) ∨ s.sco.cur ≠ some j) (h : NoCv (s.co j).call) :
    NoCv (s'.co j).call := by
  rcases call_keep hw hs ha with e | e
  · rw [e]; exact h
  · rw [e]; intro v m dl; simp

theorem finish_co {s s' : S} {j : Nat} (hs : step s .finish = some s') (hj : s.sco.cur = some j) : (s.co j).pc = .user ∧ s' = setPc s j (.exitRun false) := by
  unfold step at hs; simp only [hj] at hs; (repeat' split at hs) <;> cases hs; exact ⟨by assumption, rfl⟩
theorem submit_co {s s' : S} {o : Bool} {j : Nat} (hs : step s (.submit o) = some s') (hj : s.sco.cur = some j) :
    (s.co j).pc = .workTry ∧ ((s'.co j) = { s.co j with pc := .workWait } ∨ s'.co j = s.co j) := by
  unfold step at hs; simp only [hj] at hs; (repeat' split at hs) <;> cases hs
  · exact ⟨by assumption, .inl (by simp [setPc_co])⟩
  · exact ⟨by assumption, .inr rfl⟩
theorem events_cur {s s' : S} {evs : List (Nat × Bool × Bool)} {j : Nat} (hs : step s (.events evs) = some s') (hj : s.sco.cur = some j) : False := by
  unfold step at hs; split at hs
  · cases hs
  simp only at hs
  split at hs
  · rename_i h; rw [hj] at h; cases h.1
  · cases hs

theorem reach_hold {ok} {s : S} (r : Reach ok s) : s.fault = false → ∀ j, owedQ j s.log = true → Hold (s.co j) := by
  induction r with
  | init a e => intro _ j h; simp [init, owedQ] at h
  | @step s s' r a hok hs ih =>
    intro hf j ho
    have hw := reach_scoWF r
    have hf0 := step_nofault hs
    have hft := (reach_invN r hf0 j).ft
    rcases owedQ_step hs ho with h | ⟨h, i, es, h1, h2⟩
    · have ih := ih hf0 j h
      by_cases hj : s.sco.cur = some j
      · cases a with
        | call c =>
          obtain ⟨hu, hn, e⟩ := step_call_of hs hj
          have hcan : (s.co j).canceled = true := by
            rcases ih with ih | ih
            · exact ih.1
            · rw [hu] at ih; cases ih
          have hcs : ((callSt s j c).co j).canceled = true := by rw [callSt_field Co.canceled (by intros; rfl)]; exact hcan
          subst e
          have hc := (doCall_can hcs (cur_le hw hj).2 hf).a
          rcases hc with hc | hc
          · refine .inl ⟨hc.1, ?_⟩
            rw [doCall_call (s := callSt s j c) c (cur_le hw hj).2]
            simpa [NoCv, callSt, upd_co] using hc.2
          · exact .inr hc
        | tau =>
          have ht := step_tau hs hj
          rcases ih with ⟨hc, hn⟩ | hp
          · rcases tau_can ht hc hn hft hf with h | h | ⟨f, h⟩
            · exact .inl ⟨h, noCv_keep hw hs (.inl (by simp)) hn⟩
            · exact .inr h
            · rw [h] at ho; simp [owedQ] at ho
          · unfold tauCo at ht; rw [hp] at ht; simp only [Option.some.injEq] at ht
            subst ht
            rcases doRet_log' (s := s) (i := j) (v := CANCELED) with h | h <;> rw [h] at ho <;> simp [owedQ] at ho
        | finish =>
          obtain ⟨hu, rfl⟩ := finish_co hs hj
          rcases ih with ih | ih
          · exact .inl (by simpa [setPc_co] using ih)
          · rw [hu] at ih; cases ih
        | submit o =>
          obtain ⟨hu, h⟩ := submit_co hs hj
          rcases ih with ih | ih
          · rcases h with h | h <;> rw [h] <;> exact .inl ih
          · rw [hu] at ih; cases ih
        | events evs => exact (events_cur hs hj).elim
        | clock t =>
          have m := env_mvs hs (.inl ⟨t, rfl⟩) j
          exact ih.imp (fun h => ⟨m.canceled_keep h.1, by rw [m.pc.2]; exact h.2⟩) (fun h => by rw [m.pc.1]; exact h)
        | signal n =>
          have m := env_mvs hs (.inr (.inl ⟨n, rfl⟩)) j
          exact ih.imp (fun h => ⟨m.canceled_keep h.1, by rw [m.pc.2]; exact h.2⟩) (fun h => by rw [m.pc.1]; exact h)
        | wdone k =>
          have m := env_mvs hs (.inr (.inr ⟨k, rfl⟩)) j
          exact ih.imp (fun h => ⟨m.canceled_keep h.1, by rw [m.pc.2]; exact h.2⟩) (fun h => by rw [m.pc.1]; exact h)
      · by_cases hn : (a = .call .start ∨ a = .call .genStart) ∧ j = s.sco.nextId + 1
        · obtain ⟨ha, rfl⟩ := hn
          obtain ⟨i, g, _, _, _, _, _, _, _, hl, _⟩ := start_new ha hs
          rcases hl with hl | hl <;> rw [hl] at ho <;> simp [owedQ] at ho
        · have m := step_other (reach_invL r) (reach_invC r) hs hj (fun ha e => hn ⟨ha, e⟩) (((reach_invF r).cf j).evU)
          exact ih.imp (fun h => ⟨m.canceled_keep h.1, by rw [m.pc.2]; exact h.2⟩) (fun h => by rw [m.pc.1]; exact h)
    · obtain ⟨h3, _, _, h4⟩ := cancel_marks hs h1 h2
      exact .inl ⟨h3, noCv_keep hw hs (.inl h4) ((inCond_iff r).mp h)⟩

/-! ## A call made with a cancelation owed -/

/-- nothing a step does to `j` after the call saves it -/
theorem doom_step {ok} {s s' : S} {a : Act} {j : Nat} {e : Int → Prop} (r : Reach ok s) (hs : step s a = some s') (hf : s'.fault = false)
    (ha : (∀ c, a ≠ .call c) ∨ s.sco.cur ≠ some j) (hnn : (s.co j).call ≠ .none) (hw : (s.co j).call ≠ .work) (hn' : (s'.co j).call ≠ .none) (h : Doom e (s.co j)) : Doom e (s'.co j) := by
  have hwf := reach_scoWF r
  have hft := (reach_invN r (step_nofault hs) j).ft
  by_cases hj : s.sco.cur = some j
  · cases a with
    | call c => rcases ha with ha | ha
                · exact absurd rfl (ha c)
                · exact absurd hj ha
    | tau =>
      rcases h.tau (step_tau hs hj) hf with h | h
      · exact h
      · exact absurd h hn'
    | finish =>
      obtain ⟨hu, _⟩ := finish_co hs hj
      unfold fits at hft; rw [hu] at hft; exact absurd hft hnn
    | submit o =>
      obtain ⟨hu, _⟩ := submit_co hs hj
      unfold fits at hft; rw [hu] at hft; exact absurd hft hw
    | events evs => exact (events_cur hs hj).elim
    | clock t => exact h.mvs (env_mvs hs (.inl ⟨t, rfl⟩) j)
    | signal n => exact h.mvs (env_mvs hs (.inr (.inl ⟨n, rfl⟩)) j)
    | wdone k => exact h.mvs (env_mvs hs (.inr (.inr ⟨k, rfl⟩)) j)
  · refine h.mvs (step_other (reach_invL r) (reach_invC r) hs hj ?_ (((reach_invF r).cf j).evU))
    intro ha e
    have := (reach_invF r).fresh j (by omega)
    unfold fits at hft; rw [this] at hft; exact absurd hft hnn

theorem waits_none {c : Call} (h : waits c = true) : c ≠ .none ∧ c ≠ .work := by constructor <;> (rintro rfl; cases h)

theorem reach_doom {ok} {s : S} (r : Reach ok s) : s.fault = false → ∀ j c b, (s.co j).call = c → waits c = true → s.log = since j s.log ++ .call j c :: b → owedQ j b = true →
    Doom (early c) (s.co j) := by
  induction r with
  | init a e => intro _ j c b h hw; exfalso; revert h; simp only [init]; split <;> (rintro rfl; cases hw)
  | @step s s' r a hok hs ih =>
    intro hf j c b hc hwt hb ho
    have hw := reach_scoWF r
    have hf0 := step_nofault hs
    obtain ⟨hn0, hn1⟩ := waits_none hwt
    by_cases ha : (∀ c, a ≠ .call c) ∨ s.sco.cur ≠ some j
    · have hcs : (s.co j).call = c := by
        rcases call_keep hw hs ha with e | e
        · rw [← e]; exact hc
        · rw [e] at hc; exact absurd hc.symm hn0
      obtain ⟨es, he, h1, h2⟩ := step_calls hs
      have hno : ∀ e ∈ es, isCallOf j e = false := by
        by_cases hj : s.sco.cur = some j
        · rcases ha with ha | ha
          · exact h2 j hj ha
          · exact absurd hj ha
        · exact h1 j hj
      rw [he, since_append hno, List.append_assoc] at hb
      exact doom_step r hs hf ha (by rw [hcs]; exact hn0) (by rw [hcs]; exact hn1) (by rw [hc]; exact hn0) (ih hf0 j c b hcs hwt (List.append_cancel_left hb) ho)
    · have hj : s.sco.cur = some j := Classical.byContradiction (fun h => ha (.inr h))
      obtain ⟨c', rfl⟩ : ∃ c, a = .call c := Classical.byContradiction (fun h => ha (.inl (fun c e => h ⟨c, e⟩)))
      obtain ⟨hu, hn, e⟩ := step_call_of hs hj
      have hcc : c' = c := by
        rw [e, doCall_call (s := callSt s j c') c' (cur_le hw hj).2] at hc
        simpa [callSt, upd_co] using hc
      subst hcc
      have hb' : b = s.log := by
        obtain ⟨fs, _, _, h3⟩ := since_step (s := s') (es := []) hs hj rfl (by simp)
        have := List.append_cancel_left (hb.symm.trans h3)
        simpa using this
      subst hb'
      have hcan : (s.co j).canceled = true := by
        rcases reach_hold r hf0 j ho with h | h
        · exact h.1
        · rw [hu] at h; cases h
      have hcs : ((callSt s j c').co j).canceled = true := by rw [callSt_field Co.canceled (by intros; rfl)]; exact hcan
      subst e
      have hcn := doCall_can hcs (cur_le hw hj).2 hf
      rcases hcn.b hwt with ⟨v, h1, h2⟩ | ⟨x, h1, h2, h3⟩ | ⟨h1, h2⟩
      · exact .inr (.inl ⟨v, h1, h2⟩)
      · rcases hcn.a with h | h
        · exact .inr (.inr (.inl ⟨h.1, x, h1, h2, fun e => absurd e h3⟩))
        · rw [h1] at h; cases h
      · rcases hcn.a with h | h
        · exact .inr (.inr (.inr (.inl ⟨h.1, h1, h2⟩)))
        · rw [h1] at h; cases h

theorem Doom.ret {e : Int → Prop} {k : Co} {v : Int} (h : Doom e k) (hp : k.pc = .ret v) : v = CANCELED ∨ e v := by
  rcases h with h | ⟨w, h, g⟩ | ⟨_, b, h, _⟩ | ⟨_, h, _⟩ | ⟨h, _⟩
  · rw [hp] at h; cases h
  · rw [hp] at h; cases h; exact g
  · rw [hp] at h; cases h
  · rw [hp] at h; cases h
  · rw [hp] at h; cases h

/-! ## A cancelation that arrives during a call -/

theorem Later.reach {s t : S} (h : Later s t) (r : Reach any s) : Reach any t := by
  induction h with
  | refl => exact r
  | step _ hs ih => exact .step ih _ trivial hs

theorem Later.log {s t : S} (h : Later s t) : ∃ es, t.log = es ++ s.log := by
  induction h with
  | refl => exact ⟨[], rfl⟩
  | step _ hs ih =>
    obtain ⟨es, h1⟩ := ih
    obtain ⟨fs, h2, _⟩ := step_adds hs
    exact ⟨fs ++ es, by rw [h2, h1, List.append_assoc]⟩

theorem Later.fault {s t : S} (h : Later s t) (hf : t.fault = false) : s.fault = false := by
  induction h with
  | refl => exact hf
  | step _ hs ih => exact ih (step_nofault hs)

theorem later_doom {s t : S} {i : Nat} {c : Call} {e : Int → Prop} (r : Reach any s) (hc : (s.co i).call = c) (hwt : waits c = true) (h : Doom e (s.co i)) (hl : Later s t) (hf : t.fault = false) :
    ∀ es, t.log = es ++ s.log → (∀ x ∈ es, isCallOf i x = false) → ((t.co i).call = c ∧ Doom e (t.co i)) ∨ (t.co i).call = .none := by
  obtain ⟨hn0, hn1⟩ := waits_none hwt
  induction hl with
  | refl => intro _ _ _; exact .inl ⟨hc, h⟩
  | @step t u a hl hs ih =>
    intro es he hno
    have rt := hl.reach r
    obtain ⟨es0, h1⟩ := hl.log
    obtain ⟨fs, h2, _⟩ := step_adds hs
    have : es = fs ++ es0 := by
      rw [h2, h1, ← List.append_assoc] at he
      exact (List.append_cancel_right he).symm
    subst this
    have ha : (∀ c, a ≠ .call c) ∨ t.sco.cur ≠ some i := by
      refine Classical.byContradiction (fun hx => ?_)
      have hj : t.sco.cur = some i := Classical.byContradiction (fun h => hx (.inr h))
      obtain ⟨c', rfl⟩ : ∃ c, a = .call c := Classical.byContradiction (fun h => hx (.inl (fun c e => h ⟨c, e⟩)))
      obtain ⟨gs, e1, _⟩ := call_log hs hj
      rw [h2] at e1
      have : fs = gs ++ [.call i c'] := by
        refine List.append_cancel_right (bs := t.log) ?_
        rw [e1]; simp
      have := hno (.call i c') (by rw [this]; simp)
      simp [isCallOf] at this
    have ih := ih (step_nofault hs) es0 h1 (fun x hx => hno x (List.mem_append.mpr (.inr hx)))
    rcases call_keep (reach_scoWF rt) hs ha with e1 | e1
    · rcases ih with ⟨g1, g2⟩ | g
      · exact .inl ⟨e1.trans g1, doom_step rt hs hf ha (by rw [g1]; exact hn0) (by rw [g1]; exact hn1) (by rw [e1, g1]; exact hn0) g2⟩
      · exact .inr (e1.trans g)
    · exact .inr e1

end Neco.Rt
