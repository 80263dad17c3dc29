import Verif.Proof.RtCancel2
/-!
# What `neco_cancel` returns
-/
namespace Neco.Rt
open Neco.Err

/-- the value a yielding operation will return -/
def aftPc : Pc → Option Int
  | .yck _ (.ret v) | .yld _ (.ret v) | .go (.ret v) => some v
  | _ => none

structure NfOk (s : S) (j id : Nat) (dl : Int) : Prop where
  a : (s.co j).pc = .ret NOTFOUND → s.sco.cur = some j ∧ id ∉ s.all
  b : ∀ v, aftPc (s.co j).pc = some v → v = OK
  c : ∀ b, s.log = since j s.log ++ .call j (.cancel id dl) :: b → id ∉ live b → s.sco.cur = some j ∧ (((s.co j).pc = .cancelTry ∧ live s.log = live b) ∨ (s.co j).pc = .ret NOTFOUND)
  d : (aftPc (s.co j).pc).isSome = true ∨ (s.co j).pc = .ret OK → .cancel j id ∈ since j s.log
def InvNf (s : S) : Prop := s.fault = false → ∀ j id dl, (s.co j).call = .cancel id dl → NfOk s j id dl

theorem aft_exiting {p : Pc} (h : p.exiting = true) : aftPc p = none := by
  cases p <;> simp [Pc.exiting] at h <;> try rfl
  all_goals (rename_i a; cases a <;> simp [Aft.exiting] at h <;> rfl)

theorem dlCode_nf {s : S} {i : Nat} {dl : Int} : dlCode s i dl ≠ NOTFOUND := by
  rcases timed_dlCode s i dl with h | h | h <;> rw [h] <;> decide

theorem reach_invNf {ok} {s : S} (r : Reach ok s) : InvNf s := by
  induction r with
  | init a e => intro _ j id dl h; exfalso; revert h; simp only [init]; split <;> simp
  | @step s s' r a hok hs ih =>
    have hw := reach_scoWF r
    intro hf j id dl hcall
    have hf0 := step_nofault hs
    have ih := ih hf0 j id dl
    by_cases hj : s.sco.cur = some j
    · have hft := (reach_invN r hf0 j).ft
      cases a with
      | call c =>
        obtain ⟨hu, hn, e⟩ := step_call_of hs hj
        have hc : c = .cancel id dl := by
          have := ((reach_invN (.step r (.call c) hok hs) hf j).ft)
          rw [e, doCall_call (s := callSt s j c) c (cur_le hw hj).2] at hcall
          simpa [callSt, upd_co] using hcall
        subst hc
        have e1 : s' = setPc (callSt s j (.cancel id dl)) j .cancelTry := e
        have e2 : (s'.co j).pc = .cancelTry := by rw [e1]; simp
        have e3 : s'.log = .call j (.cancel id dl) :: s.log := by rw [e1]; rfl
        refine ⟨by rw [e2]; simp, by rw [e2]; simp [aftPc], fun b hb hl => ⟨by rw [e1]; exact hj, .inl ⟨e2, ?_⟩⟩, by rw [e2]; simp [aftPc]⟩
        rw [e3] at hb ⊢
        have : since j (Ev.call j (.cancel id dl) :: s.log) = [] := by simp [since, isCallOf]
        rw [this] at hb; simp at hb; subst hb; rfl
      | finish =>
        exfalso
        have hs0 := hs
        unfold step at hs; simp only [hj] at hs; (repeat' split at hs) <;> cases hs
        rename_i hu
        unfold fits at hft; rw [hu] at hft
        simp [setPc_co, hft] at hcall
      | submit o =>
        exfalso
        unfold step at hs; simp only [hj] at hs; (repeat' split at hs) <;> cases hs
        all_goals
          rename_i hu _
          unfold fits at hft; rw [hu] at hft
          simp [setPc_co, hft] at hcall
      | events evs =>
        exfalso
        unfold step at hs; split at hs
        · cases hs
        simp only at hs
        split at hs
        · rename_i h; rw [hj] at h; cases h.1
        · cases hs
      | tau =>
        have ht : tauCo s j = some s' := by
          unfold step at hs; split at hs
          · cases hs
          · simpa [hj] using hs
        have hcs : (s.co j).call = .cancel id dl := by
          have hst := step_stat hw hs j
          cases hst with
          | same h _ => rw [← hcall]; exact (congrArg (·.1) h).symm
          | call c ha _ _ _ => cases ha
          | new _ _ ha _ _ _ => rcases ha with ⟨ha, _⟩ | ⟨ha, _⟩ <;> cases ha
          | ret v _ _ _ h =>
            have : (s'.co j).call = .none := congrArg (·.1) h
            rw [this] at hcall; cases hcall
          | clean x q _ _ _ _ h => rw [← hcall]; exact (congrArg (·.1) h).symm
          | genRel x y _ _ _ h => rw [← hcall]; exact (congrArg (·.1) h).symm
        have ih := ih hcs
        have hc1 : ∀ b, s'.log = since j s'.log ++ .call j (.cancel id dl) :: b → id ∉ live b → (((s.co j).pc = .cancelTry ∧ live s.log = live b) ∨ (s.co j).pc = .ret NOTFOUND) := by
          intro b hb hl
          obtain ⟨es, hes, _, hca⟩ := step_calls hs
          rw [hes, since_append (hca j hj (by intro c hc; cases hc)), List.append_assoc] at hb
          exact (ih.c b (List.append_cancel_left hb) hl).2
        by_cases hex : (s.co j).pc.exiting = true
        · have hx := tauCo_exiting ht hex
          refine ⟨fun h => ?_, fun v h => ?_, fun b hb hl => ?_, fun h => ?_⟩
          · rw [h] at hx; cases hx
          · rw [aft_exiting hx] at h; cases h
          rotate_left
          · rw [aft_exiting hx] at h
            rcases h with h | h
            · cases h
            · rw [h] at hx; cases hx
          · rcases hc1 b hb hl with h | h
            · rw [h.1] at hex; cases hex
            · rw [h] at hex; cases hex
        by_cases hct : (s.co j).pc = .cancelTry
        · unfold tauCo at ht
          rw [hct, hcs] at ht
          simp only [Option.some.injEq] at ht
          subst ht
          unfold doCancel at hc1 ⊢
          by_cases hm : id ∉ s.all
          · simp only [if_pos hm] at hc1 ⊢
            exact ⟨fun _ => ⟨hj, hm⟩, by simp [retv_co, aftPc], fun b hb hl => ⟨hj, .inr (by simp)⟩, fun h => by simp [aftPc] at h; exact absurd h (by decide)⟩
          · have hnl : ∀ b, live s.log = live b → id ∉ live b → False := by
              intro b h1 h2
              rw [← h1, ← all_live r] at h2
              exact hm h2
            simp only [if_neg hm] at hc1 ⊢
            have hc2 : ∀ (P : Prop) (b : List Ev), (((s.co j).pc = .cancelTry ∧ live s.log = live b) ∨ (s.co j).pc = .ret NOTFOUND) → id ∉ live b → P := by
              intro P b h hl
              rcases h with h | h
              · exact (hnl b h.2 hl).elim
              · rw [hct] at h; cases h
            split
            · rename_i hd
              simp only [if_pos hd] at hc1
              refine ⟨?_, by simp [retv_co, aftPc], fun b hb hl => hc2 _ b (hc1 b hb hl) hl, ?_⟩
              · intro h; simp at h; exact absurd h dlCode_nf
              · intro h; simp [aftPc] at h; exact absurd h hd
            · rename_i hd
              simp only [if_neg hd] at hc1
              split
              · rename_i he
                simp only [if_pos he] at hc1
                have hp : ∀ t : S, ((scoResume (setPc t j (.yld 0 (.ret OK))) id).co j).pc = .yld 0 (.ret OK) := by intro t; simp
                refine ⟨by rw [hp]; simp, ?_, fun b hb hl => hc2 _ b (hc1 b hb hl) hl, ?_⟩
                · intro v h; rw [hp] at h; simp [aftPc] at h; exact h.symm
                · intro _
                  simp [since, isCallOf, note]
              · rename_i he
                simp only [if_neg he] at hc1
                have hp : ∀ t : S, ((copause t j dl .cancel).co j).pc = .blk .cancel := by intro t; simp
                refine ⟨by rw [hp]; simp, ?_, fun b hb hl => hc2 _ b (hc1 b hb hl) hl, ?_⟩
                · intro v h; rw [hp] at h; simp [aftPc] at h
                · intro h; rw [hp] at h; simp [aftPc] at h
        by_cases hrt : ∃ v, (s.co j).pc = .ret v
        · obtain ⟨v, hv⟩ := hrt
          have ht2 : s' = doRet s j v := by unfold tauCo at ht; rw [hv] at ht; exact (Option.some.inj ht).symm
          by_cases hk : v = CANCELED ∧ (s.co j).call.guarded = true ∧ (s.co j).async = true
          · have hp : (s'.co j).pc = .exitRun true := by rw [ht2]; unfold doRet; rw [if_pos hk]; simp
            refine ⟨by rw [hp]; simp, by rw [hp]; simp [aftPc], fun b hb hl => ?_, by rw [hp]; simp [aftPc]⟩
            rcases hc1 b hb hl with h | h
            · rw [hv] at h; cases h.1
            · rw [hv] at h; cases h; exact absurd hk.1 (by decide)
          · exfalso
            rw [ht2] at hcall; unfold doRet at hcall; rw [if_neg hk] at hcall
            simp [upd_co] at hcall
        · have hc3 : ∀ (P : Prop) (b : List Ev), s'.log = since j s'.log ++ .call j (.cancel id dl) :: b → id ∉ live b → P := by
            intro P b hb hl
            rcases hc1 b hb hl with h | h
            · exact absurd h.1 hct
            · exact absurd ⟨_, h⟩ hrt
          have hsub : .cancel j id ∈ since j s.log → .cancel j id ∈ since j s'.log := by
            obtain ⟨es, hes, _, hca⟩ := step_calls hs
            rw [hes, since_append (hca j hj (by intro c hc; cases hc))]
            intro h; exact List.mem_append_right _ h
          suffices hs2 : ((s'.co j).pc ≠ .ret NOTFOUND) ∧ (∀ v, aftPc (s'.co j).pc = some v → v = OK) ∧ ((aftPc (s'.co j).pc).isSome = true ∨ (s'.co j).pc = .ret OK → .cancel j id ∈ since j s.log) from
            ⟨fun h => absurd h hs2.1, hs2.2.1, fun b hb hl => hc3 _ b hb hl, fun h => hsub (hs2.2.2 h)⟩
          have ihb := ih.b
          have ihd := ih.d
          unfold fits at hft
          unfold tauCo at ht
          split at ht <;> rename_i e <;> rw [e] at hft hex hct hrt ihb ihd <;> try (cases ht; done)
          · exact absurd ⟨_, rfl⟩ hrt
          · rename_i n x
            split at ht
            · cases ht; simp [aftPc]
            · split at ht <;> cases ht
              · rw [pc_setPc]
                refine ⟨by simp, fun v h => ihb v ?_, fun h => ihd ?_⟩
                · cases x <;> simp [aftPc] at h ⊢; exact h
                · cases x <;> simp [aftPc] at h ⊢
              · rw [pc_coyield]
                refine ⟨by simp, fun v h => ihb v ?_, fun h => ihd ?_⟩
                · cases x <;> simp [aftPc] at h ⊢; exact h
                · cases x <;> simp [aftPc] at h ⊢
          · rename_i n x
            cases ht
            rw [pc_coyield]
            refine ⟨by simp, fun v h => ihb v ?_, fun h => ihd ?_⟩
            · cases x <;> simp [aftPc] at h ⊢; exact h
            · cases x <;> simp [aftPc] at h ⊢
          · rename_i x
            cases ht
            cases x with
            | ret v =>
              simp only [doAft]; rw [pc_retv]
              refine ⟨?_, by simp [aftPc], fun _ => ihd (.inl rfl)⟩
              have := ihb v rfl
              subst this; decide
            | condEnq => simp [hcs] at hft
            | genRel _ _ => exact absurd rfl hex
            | exitTail _ _ => exact absurd rfl hex
            | fin _ => exact absurd rfl hex
          · simp [hcs, selCs] at hft
          · rename_i b
            cases ht
            cases b
            case cancel =>
              simp only [afterBlk]; rw [pc_setPc]; simp [aftPc]
            all_goals (exfalso; first | (simp [hcs, BlkC] at hft; done) | (rename_i rd; cases rd <;> simp [hcs, BlkC] at hft))
          · exact absurd rfl hct
          · simp [hcs] at hft
          · simp [hcs] at hft
          · exact absurd rfl hex
      | clock t =>
        unfold step at hs
        split at hs
        · cases hs
        simp only at hs
        (repeat' split at hs) <;> cases hs
        have ih := ih hcall
        exact ⟨ih.a, ih.b, ih.c, ih.d⟩
      | signal n =>
        unfold step at hs
        split at hs
        · cases hs
        simp only at hs
        (repeat' split at hs) <;> cases hs
        all_goals
          have ih := ih hcall
          refine ⟨ih.a, ih.b, fun b hb hl => ?_, fun h => ?_⟩
          rotate_left
          · have := ih.d h
            show _ ∈ since j (Ev.sig n :: s.log)
            rw [show since j (Ev.sig n :: s.log) = Ev.sig n :: since j s.log by simp [since, isCallOf]]
            exact List.mem_cons_of_mem _ this
          have hb' : Ev.sig n :: s.log = since j (Ev.sig n :: s.log) ++ Ev.call j (.cancel id dl) :: b := hb
          rw [show since j (Ev.sig n :: s.log) = Ev.sig n :: since j s.log by simp [since, isCallOf]] at hb'
          exact ih.c b (by simpa using hb') hl
      | wdone k =>
        unfold step at hs
        split at hs
        · cases hs
        simp only at hs
        (repeat' split at hs) <;> cases hs
        have ih := ih (by simpa using hcall)
        have hes : ∀ e ∈ Ev.wdone k :: leave s k, isCallOf j e = false := by
          intro e he
          rcases List.mem_cons.mp he with rfl | he
          · rfl
          · obtain ⟨c, rfl, _⟩ := mem_leave he; rfl
        refine ⟨by simpa using ih.a, by simpa using ih.b, fun b hb hl => ?_, fun h => ?_⟩
        rotate_left
        · have := ih.d (by simpa using h)
          rw [show (push _ _ _ : S).log = (Ev.wdone k :: leave s k) ++ s.log from rfl, since_append hes]
          exact List.mem_append_right _ this
        have hb' : (Ev.wdone k :: leave s k) ++ s.log = since j ((Ev.wdone k :: leave s k) ++ s.log) ++ Ev.call j (.cancel id dl) :: b := hb
        rw [since_append hes, List.append_assoc] at hb'
        have := ih.c b (List.append_cancel_left hb') hl
        have hlv : live (Ev.wdone k :: (leave s k ++ s.log)) = live s.log := by
          rw [← live_filter, ← live_filter s.log, List.filter_cons, List.filter_append, filter_leave_nil (fun _ => rfl)]; rfl
        show _ ∧ (_ ∧ live (Ev.wdone k :: (leave s k ++ s.log)) = _ ∨ _)
        rw [hlv]; exact this
    · by_cases hn : (a = .call .start ∨ a = .call .genStart) ∧ j = s.sco.nextId + 1
      · exfalso
        obtain ⟨ha, rfl⟩ := hn
        obtain ⟨i, g, hc, e1, _⟩ := start_new ha hs
        rw [e1, (newCo_pc s i g).2] at hcall; cases hcall
      have hm := step_other (reach_invL r) (reach_invC r) hs hj (fun ha e => hn ⟨ha, e⟩) (((reach_invF r).cf j).evU)
      rw [hm.pc.2] at hcall
      have ih := ih hcall
      refine ⟨fun h => ?_, fun v h => ?_, fun b hb hl => ?_, fun h => ?_⟩
      · rw [hm.pc.1] at h; exact absurd (ih.a h).1 hj
      · rw [hm.pc.1] at h; exact ih.b v h
      rotate_left
      · rw [hm.pc.1] at h
        obtain ⟨es, hes, hca, _⟩ := step_calls hs
        rw [hes, since_append (hca j hj)]
        exact List.mem_append_right _ (ih.d h)
      · obtain ⟨es, hes, hca, _⟩ := step_calls hs
        rw [hes, since_append (hca j hj), List.append_assoc] at hb
        exact absurd (ih.c b (List.append_cancel_left hb) hl).1 hj

/-- which handler runs when -/
theorem clean_why {ok} {s : S} (r : Reach ok s) : ∀ {x b : List Ev} {e : Ev}, rl s = x ++ e :: b → ∀ j h, e = .clean j h → Paired b →
    (dying j b = true ∧ (ran j b ++ [h]) <+: handlers j b) ∨ (dying j b = false ∧ ∃ b', b = .call j (.cpop true) :: b' ∧ (handlers j b').head? = some h) := by
  refine rl_all (P := fun _ e b => ∀ j h, e = .clean j h → Paired b →
    (dying j b = true ∧ (ran j b ++ [h]) <+: handlers j b) ∨ (dying j b = false ∧ ∃ b', b = .call j (.cpop true) :: b' ∧ (handlers j b').head? = some h)) (fun _ _ _ h => by cases h) ?_ r
  intro s s' a r _ hs es hr hes x e y he j h hek hp
  subst hek
  have hm : .clean j h ∈ es := by rw [he]; simp
  have hf0 := step_nofault hs
  obtain ⟨hc, hh⟩ := hr.cleans hm
  have hj := (cur_le (reach_scoWF r) hc).2
  rcases hh with ⟨ha, e1⟩ | ⟨ha, e1, hpc, q, hq⟩
  · have : x = [] ∧ y = [.call j (.cpop true)] := by
      rw [e1] at he
      cases x with
      | nil => simp at he; exact ⟨rfl, he.symm⟩
      | cons z x => simp at he; cases x <;> simp at he
    obtain ⟨rfl, rfl⟩ := this
    subst ha
    cases hr with
    | cpop i hc' hpu h' q hq =>
      rw [hc] at hc'; cases hc'
      simp at e1; subst e1
      have hnd : dying j (rl s) = false := by
        cases hd : dying j (rl s) with
        | false => rfl
        | true =>
          have := ((reach_invDy r).dy hf0 j (.inl hd)).1
          rw [hpu] at this; cases this
      have hcl := (reach_invCl r).eq (hp.suffix (a := [.call j (.cpop true)])) j hj
      rw [ran_alive hnd, hq] at hcl
      refine .inr ⟨by simpa [dying_cons, endsBy] using hnd, rl s, rfl, ?_⟩
      rw [← hcl]; rfl
    | call => simp at e1
    | start => simp at e1
    | nil => cases e1
  · have : x = [] ∧ y = [] := by
      rw [e1] at he
      cases x with
      | nil => simp at he; exact ⟨rfl, he⟩
      | cons z x => simp at he
    obtain ⟨rfl, rfl⟩ := this
    have hcl := (reach_invCl r).eq (by simpa using hp) j hj
    refine .inl ⟨(reach_invDy r).ru j hpc, ?_⟩
    rw [List.nil_append, ← hcl, hq]
    exact ⟨q, by simp⟩

/-- a coroutine that waits to cancel another is in that one's queue -/
theorem cancel_in {s : S} {t i : Nat} (f : Fresh i s) {dl : Int} (h : Asleep s i) (hp : pending i s.log = some (.cancel t dl)) : .co i ∈ s.lists (.cancelQ t) := by
  have r := f.reach
  obtain ⟨hb, hw⟩ := h
  have hcall := ((pending_call r).mp hp).1
  obtain ⟨b, hpc, dl', hbc, _⟩ := blocked_blk r hb hp (pending_ne_work f hp (by simp))
  have hbb : b = .cancel := by
    cases b <;> simp [BlkC] at hbc <;> first | rfl | (rename_i x; cases x <;> simp [BlkC] at hbc)
  subst hbb
  rcases (f.coE.bk _ hpc).lw hb with h | h
  · have h := Classical.not_not.mp h
    obtain ⟨L, h1, h2, h3⟩ := h
    have hpl := (reach_invL r).pl L _ h3
    simp only [Node.owner] at hpl
    cases L <;> simp [place, hpc, hcall] at hpl h1 h2
    subst hpl; exact h3
  · exact absurd h hw

end Neco.Rt
