import Verif.Proof.RtTame2
import Verif.Proof.RtFits
import Verif.Proof.RtCall
import Verif.Spec.RtTame
import Verif.Proof.RtGen3
/-!
# Executions without `neco_cancel` and without deadlines on selects leave no stale wake-up
-/
namespace Neco.Rt
open Neco.Err

/-- only tame calls are in the history -/
def TLog (s : S) : Prop := (∀ e ∈ s.log, e.kind ≠ .cancel) ∧ ∀ i c, .call i c ∈ s.log → tameCall c

theorem TLog.call {ok} {s : S} (h : TLog s) (r : Reach ok s) (j : Nat) : tameCall (s.co j).call := by
  by_cases hn : (s.co j).call = .none
  · rw [hn]; exact ⟨by simp, by simp⟩
  · obtain ⟨a, b, e, _⟩ := reach_callIn r j hn
    have : Ev.call j (s.co j).call ∈ rl s := by rw [e]; simp
    exact h.2 _ _ (List.mem_filter.mp this).1

theorem TLog.step {s s' : S} {a : Act} {ok} (h : TLog s) (r : Reach ok s) (ht : Tame s a) (hs : Rt.step s a = some s') : TLog s' := by
  cases a with
  | call c =>
    obtain ⟨i, hcur, hu, hn, e⟩ := step_call hs
    obtain ⟨es, e1, e2⟩ := doCall_adds (callSt s i c) i c
    rw [← e] at e1
    have hl : s'.log = es ++ .call i c :: s.log := e1
    refine ⟨fun x hx => ?_, fun k d hx => ?_⟩
    · rw [hl] at hx
      rcases List.mem_append.mp hx with hx | hx
      · have := e2 x hx
        intro hk; rw [hk] at this
        revert this; cases c <;> simp [callKinds]
      · rcases List.mem_cons.mp hx with rfl | hx
        · simp [Ev.kind]
        · exact h.1 x hx
    · rw [hl] at hx
      rcases List.mem_append.mp hx with hx | hx
      · exact absurd (e2 _ hx) (callKinds_call c)
      · rcases List.mem_cons.mp hx with hx | hx
        · cases hx; exact ht c rfl
        · exact h.2 k d hx
  | _ =>
    obtain ⟨es, e1, e2⟩ := step_adds hs
    have hk : ∀ e ∈ es, e.kind ≠ .cancel ∧ e.kind ≠ .call := by
      intro e he
      have h1 := e2 e he
      revert h1
      generalize e.kind = k
      simp only [stepKinds]
      first
        | (intro h1; revert h1; simp; done)
        | (intro h1; simp at h1; subst h1; simp; done)
        | (intro h1; simp at h1; rcases h1 with rfl | rfl <;> simp; done)
        | skip
      try (
        split
        · rename_i i hc
          have hft := step_nofault hs
          have hf := (reach_invN r hft i).ft
          have hct : (s.co i).pc ≠ .cancelTry := by
            intro hp
            unfold fits at hf; rw [hp] at hf
            obtain ⟨t, dl, hf⟩ := hf
            exact (h.call r i).1 t dl hf
          intro h1
          revert hct h1
          generalize (s.co i).pc = p
          intro hct h1
          cases p
          case blk b => cases b <;> simp [pcKinds] at h1 <;> subst h1 <;> simp
          case cancelTry => exact absurd rfl hct
          all_goals (simp [pcKinds] at h1; try (rcases h1 with rfl | rfl | rfl <;> simp); try (rcases h1 with rfl | rfl <;> simp); try (subst h1; simp))
        · generalize s.main = p
          cases p <;> simp [mainKinds] <;> (intro h1; subst h1; simp))
    refine ⟨fun x hx => ?_, fun k d hx => ?_⟩
    · rw [e1] at hx
      rcases List.mem_append.mp hx with hx | hx
      · exact (hk x hx).1
      · exact h.1 x hx
    · rw [e1] at hx
      rcases List.mem_append.mp hx with hx | hx
      · exact absurd rfl (hk _ hx).2
      · exact h.2 k d hx

/-! ## Good coroutines -/

theorem Plain.mono {i : Nat} {es l : List Ev} (h : Plain i (es ++ l)) : Plain i l :=
  ⟨fun k hk => h.1 k (List.mem_append_right _ hk), fun c hc => h.2 c (List.mem_append_right _ hc)⟩
theorem EndedBefore.mono {k i : Nat} {es l : List Ev} (h : EndedBefore k i l) : EndedBefore k i (es ++ l) := by
  obtain ⟨a, b, p, e, hx⟩ := h
  exact ⟨es ++ a, b, p, by rw [e, List.append_assoc], hx⟩
theorem EndedBefore.exit {k i : Nat} {l : List Ev} (h : EndedBefore k i l) : .exit k ∈ l := by
  obtain ⟨a, b, p, e, hx⟩ := h
  rw [e]; exact List.mem_append_right _ (List.mem_cons_of_mem _ hx)
theorem Good.mono {i : Nat} {es l : List Ev} (h : Good i (es ++ l)) : Good i l := ⟨h.1.mono, fun k hk => (h.2 k hk.mono).mono⟩

theorem Plain.call {ok} {s : S} {j : Nat} (h : Plain j s.log) (r : Reach ok s) : plainCall (s.co j).call := by
  by_cases hn : (s.co j).call = .none
  · rw [hn]; exact ⟨by simp, by simp⟩
  · obtain ⟨a, b, e, _⟩ := reach_callIn r j hn
    have : Ev.call j (s.co j).call ∈ rl s := by rw [e]; simp
    exact h.2 _ (List.mem_filter.mp this).1

structure InvGd (s : S) : Prop where
  co : ∀ j, Good j s.log → CoT j s ∧ CoE j s
  pl : ∀ p ∈ s.pool, p.1.canceled = true ∨ p.1.deadlined = true → ∃ k, .exit k ∈ s.log ∧ ¬ Good k s.log

theorem CoT.noStale {s s' : S} {c : Call} {i : Nat} (hT : CoT i s) (hs : Rt.step s (.call c) = some s') (hc : s.sco.cur = some i) : NoStale s i := by
  obtain ⟨hu, _⟩ := step_call_of hs hc
  refine ⟨?_, ?_, ?_, ?_, ?_⟩
  · intro hm; obtain ⟨b, hb, _⟩ := hT.rz hm; rw [hu] at hb; simp at hb
  · intro hm; have := (hT.io (.inl hm)).1; rw [hu] at this; simp at this
  · intro hm; have := (hT.io (.inr hm)).1; rw [hu] at this; simp at this
  · cases e : (s.co i).deadlined with
    | false => rfl
    | true => have := (hT.dd e).1; rw [hu] at this; simp [Pc.isBlk] at this
  · rw [hT.nc]; simp

/-- a good coroutine is not started in the control block of one that left a flag in it -/
theorem InvGd.newCo {s s' : S} {a : Act} (h : InvGd s) (ha : a = .call .start ∨ a = .call .genStart) (hs : Rt.step s a = some s') (hg : Good (s.sco.nextId + 1) s'.log)
    (i : Nat) (g : Option Nat) : (newCo s i g).canceled = false ∧ (newCo s i g).deadlined = false := by
  have hp : ∀ p ∈ s.pool, ¬ (p.1.canceled = true ∨ p.1.deadlined = true) := by
    intro p hp hf
    obtain ⟨k, hk, hn⟩ := h.pl p hp hf
    obtain ⟨i, g, _, _, _, _, _, _, _, hl, _⟩ := start_new ha hs
    have he : ∃ e, s'.log = .start (some i) (s.sco.nextId + 1) :: e :: s.log := by rcases hl with hl | hl <;> exact ⟨_, hl⟩
    obtain ⟨e, hl⟩ := he
    have hb : ∀ k, .exit k ∈ s.log → Plain k s.log := by
      intro k hk
      have := hg.2 k ⟨[], e :: s.log, some i, hl, List.mem_cons_of_mem _ hk⟩
      rw [hl] at this
      exact Plain.mono (es := [_, _]) this
    exact hn ⟨hb k hk, fun k' hk' => hb k' hk'.exit⟩
  unfold Rt.newCo
  split
  · exact ⟨rfl, rfl⟩
  · rename_i c x q e
    have := hp (c, x) (by rw [e]; simp)
    simpa using this

theorem InvGd.step {s s' : S} {a : Act} (h : InvGd s) (r : Reach any s) (hs : Rt.step s a = some s') : InvGd s' := by
  have r' : Reach any s' := .step r a trivial hs
  obtain ⟨es, hes, _⟩ := step_adds hs
  have hL := reach_invL r
  have hF := reach_invF r
  have hC := reach_invC r
  have hw := reach_scoWF r
  have hft := step_nofault hs
  refine ⟨?_, ?_⟩
  · intro j hg'
    have hg : Good j s.log := by rw [hes] at hg'; exact hg'.mono
    have hT := (h.co j hg).1
    have hEj := (h.co j hg).2
    have hE' : CoE j s' := by
      by_cases hj : ∃ c, a = .call c ∧ s.sco.cur = some j
      · obtain ⟨c, rfl, hj⟩ := hj
        exact CoE.call hF hL hC hw hj (hT.noStale hs hj) hs
      · by_cases hn : (a = .call .start ∨ a = .call .genStart) ∧ j = s.sco.nextId + 1
        · obtain ⟨ha, rfl⟩ := hn
          have hcan := (h.newCo ha hs hg' · ·)
          obtain ⟨i, g, hc, e1, _⟩ := start_new ha hs
          have hp := newCo_pc s i g
          refine CoB.plain ⟨?_, ?_, ?_⟩ (by rw [e1, hp.1]; rfl)
          · rw [e1, hp.2]; simp
          · rw [e1, (hcan i g).1]; simp
          · rw [e1, hp.2]; simp
        · exact hEj.step1 hF hL hC hw (fun c e hc => hj ⟨c, e, hc⟩) (fun ha e => hn ⟨ha, e⟩) hs
    refine ⟨?_, hE'⟩
    have hnc : ∀ k, .cancel k j ∉ lg j s' := fun k hk => hg'.1.1 k (List.mem_filter.mp hk).1
    have hcan : (s'.co j).canceled = false := by
      cases e : (s'.co j).canceled with
      | false => rfl
      | true => obtain ⟨k, hk⟩ := hE'.cc e; exact absurd hk (hnc k)
    have hsm : CoT j s' ↔ (((s'.co j).deadlined = true → (s'.co j).pc.isBlk = true ∧ (s'.co j).pc ≠ .blk .sel ∧ (s'.co j).pc ≠ .blk .cancel) ∧
        (.co j ∈ s'.lists .resumers → ∃ b, (s'.co j).pc = .blk b ∧ b.listed = true ∧ (b = .sel → j ∈ s'.sco.paused)) ∧
        (.co j ∈ s'.lists .iolist ∨ j ∈ s'.jobs → (s'.co j).pc = .workWait ∧ j ∈ s'.sco.paused)) :=
      ⟨fun h => ⟨h.dd, h.rz, h.io⟩, fun h => ⟨hcan, (hg'.1.call r').1, (hg'.1.call r').2, h.1, h.2.1, h.2.2⟩⟩
    by_cases he : (∃ t, a = .clock t) ∨ (∃ n, a = .signal n) ∨ ∃ k, a = .wdone k
    · exact CoT.mvs (env_mvs hs he j) hT (hL.coL j) (hF.cf j) hEj hnc
    by_cases hj : s.sco.cur = some j
    · have hnp := WF.cur_not_paused hw hj
      have hle := cur_le hw hj
      have hio : .co j ∉ s.lists .iolist ∧ j ∉ s.jobs :=
        ⟨fun hm => hnp (hT.io (.inl hm)).2, fun hm => hnp (hT.io (.inr hm)).2⟩
      have fin : Slim j s s' → (s.co j).deadlined = false → .co j ∉ s.lists .resumers → CoT j s' := by
        intro hS h1 h2
        refine hsm.mpr ⟨fun hd => ?_, fun hm => absurd (hS.mem _ (.inl rfl) hm) h2, fun hm => ?_⟩
        · rw [hS.dd hd] at h1; simp at h1
        · rcases hm with hm | hm
          · exact absurd (hS.mem _ (.inr rfl) hm) hio.1
          · rw [hS.jb] at hm; exact absurd hm hio.2
      have nb : (∀ b, (s.co j).pc ≠ .blk b) → (s.co j).deadlined = false ∧ .co j ∉ s.lists .resumers := by
        intro hb
        constructor
        · cases e : (s.co j).deadlined with
          | false => rfl
          | true =>
            have := (hT.dd e).1
            revert hb this; cases (s.co j).pc <;> simp [Pc.isBlk]
        · intro hm; obtain ⟨b, h1, _⟩ := hT.rz hm; exact hb b h1
      have hs0 := hs
      unfold Rt.step at hs
      split at hs
      · cases hs
      cases a with
      | call c =>
        obtain ⟨hu, hne, e⟩ := step_call_of hs0 hj
        have hn := nb (by rw [hu]; simp)
        have hfr := hL.free (i := j) (by rw [hu]; rfl)
        refine fin ?_ hn.1 hn.2
        rw [e]
        have h1 : Slim j s (callSt s j c) := Slim.upd (Slim.note Slim.refl) (by simp)
        refine h1.trans (doCall_slim ?_ (by simpa [callSt] using hle.2) c)
        intro L n g1 g2 hm e'
        rcases hfr L n hm e' with h | h
        · exact g1 h
        · exact g2 h
      | finish =>
        simp only [hj] at hs
        split at hs <;> cases hs
        rename_i hu
        have hn := nb (by rw [hu]; simp)
        exact fin Slim.refl.pc hn.1 hn.2
      | tau =>
        simp only [hj] at hs
        by_cases hb : ∃ b, (s.co j).pc = .blk b
        · obtain ⟨b, hb⟩ := hb
          have hbc : b = .cancel → (s.co j).deadlined = false := by
            rintro rfl
            cases e : (s.co j).deadlined with
            | false => rfl
            | true => exact absurd hb (hT.dd e).2.2
          have e : s' = afterBlk (preBlk (unpause s j) j b) j b := by
            unfold tauCo at hs; rw [hb] at hs; simp at hs; exact hs.symm
          obtain ⟨g1, g2, g3⟩ := blk_slim (i := j) (s := s) hbc
          rw [← e] at g1 g2 g3
          refine hsm.mpr ⟨fun hd => (by rw [g2] at hd; simp at hd), fun hm => ?_, fun hm => ?_⟩
          · obtain ⟨b', b1, b2, b3⟩ := hT.rz (g1.mem _ (.inl rfl) hm)
            rw [hb] at b1; cases b1
            exact absurd hm (g3 b2 (fun e => hnp (b3 e)))
          · rcases hm with hm | hm
            · exact absurd (g1.mem _ (.inr rfl) hm) hio.1
            · rw [g1.jb] at hm; exact absurd hm hio.2
        · have hb' : ∀ b, (s.co j).pc ≠ .blk b := fun b e => hb ⟨b, e⟩
          have hn := nb hb'
          exact fin (tauCo_slim hL hb' hs) hn.1 hn.2
      | submit ok =>
        simp only [hj] at hs
        split at hs
        · rename_i hpc
          have hn := nb (by rw [hpc]; simp)
          split at hs <;> cases hs
          · refine hsm.mpr ⟨fun hd => ?_, fun hm => absurd hm hn.2, fun _ => ⟨by simp [setPc_co], ?_⟩⟩
            · simp [setPc_co, hn.1] at hd
            · rw [pause_paused _ (show (setPc { s with jobs := j :: s.jobs } j .workWait).sco.cur = some j from hj)]; simp
          · exact fin Slim.refl.eqs hn.1 hn.2
        · cases hs
      | events evs =>
        simp only at hs
        split at hs
        · rename_i h1; rw [hj] at h1; simp at h1
        · cases hs
      | clock t => exact absurd (.inl ⟨t, rfl⟩) he
      | signal n => exact absurd (.inr (.inl ⟨n, rfl⟩)) he
      | wdone k => exact absurd (.inr (.inr ⟨k, rfl⟩)) he
    · by_cases hn : (a = .call .start ∨ a = .call .genStart) ∧ j = s.sco.nextId + 1
      · obtain ⟨ha, rfl⟩ := hn
        have hnew := (h.newCo ha hs hg' · ·)
        obtain ⟨i, g, hc, e1, e2, e3, e4, e5, e6, _, _⟩ := start_new ha hs
        have hp := newCo_pc s i g
        have hnp : s.sco.nextId + 1 ∉ s.sco.paused := fun hm => by have := WF.paused_le hw hm; omega
        have hpc0 := hF.fresh (s.sco.nextId + 1) (Nat.lt_succ_self _)
        refine hsm.mpr ⟨?_, ?_, ?_⟩
        · rw [e1]; intro hd
          rw [(hnew i g).2] at hd; simp at hd
        · rw [e2]; intro hm; obtain ⟨b, b1, _⟩ := hT.rz hm; rw [hpc0] at b1; simp at b1
        · rw [e2, e5]; intro hm; exact absurd (hT.io hm).2 hnp
      · exact CoT.mvs (step_other hL hC hs hj (fun ha e => hn ⟨ha, e⟩) (hF.cf j).evU) hT (hL.coL j) (hF.cf j) hEj hnc
  · intro p hp hfl
    have ext : ∀ k, .exit k ∈ s.log ∧ ¬ Good k s.log → .exit k ∈ s'.log ∧ ¬ Good k s'.log := by
      rintro k ⟨h1, h2⟩
      rw [hes]
      exact ⟨List.mem_append_right _ h1, fun hg => h2 hg.mono⟩
    rcases step_pool hs p hp with ⟨q, hq, e⟩ | ⟨i, x, hc, hpc, e⟩
    · obtain ⟨k, hk⟩ := h.pl q hq (by rw [e]; exact hfl)
      exact ⟨k, ext k hk⟩
    · refine ⟨i, ext i ⟨(reach_invE r).pp i (by rw [hpc]; rfl), fun hg => ?_⟩⟩
      have hT := (h.co i hg).1
      rw [e] at hfl
      rcases hfl with h1 | h1
      · rw [hT.nc] at h1; simp at h1
      · have := (hT.dd h1).1; rw [hpc] at this; simp [Pc.isBlk] at this

theorem init_invGd (a e : Bool) : InvGd (init a e) := by
  refine ⟨fun j _ => ⟨⟨?_, ?_, ?_, ?_, ?_, ?_⟩, init_coE a e j⟩, by simp [init]⟩ <;> by_cases hj : j = 1 <;> simp [init, hj]

theorem reach_invGd {s : S} (r : Reach any s) : InvGd s := by
  induction r with
  | init a e => exact init_invGd a e
  | step r a _ hs ih => exact ih.step r hs

/-- every call of a good coroutine is made with no wake-up left over -/
theorem good_fresh {s : S} (r : Reach any s) {i : Nat} {c : Call} (hg : Good i s.log) (hm : .call i c ∈ s.log) : Fresh i s := by
  induction r with
  | init a e => simp [init] at hm
  | @step s s' r a hok hs ih =>
    obtain ⟨es, hes, _⟩ := step_adds hs
    have hg0 : Good i s.log := by rw [hes] at hg; exact hg.mono
    by_cases hj : ∃ c, a = .call c ∧ s.sco.cur = some i
    · obtain ⟨c', rfl, hj⟩ := hj
      exact .call r hj (((reach_invGd r).co i hg0).1.noStale hs hj) hs
    · exact .step (ih hg0 (call_only hs (fun c e hc => hj ⟨c, e, hc⟩) hm)) (fun c e hc => hj ⟨c, e, hc⟩) hs

theorem Returns.good {s : S} {i : Nat} {c : Call} {v : Int} {d : Msg} (h : Returns s i c v d) (r : Reach any s) (hg : Good i s.log) : Fresh i s := good_fresh r hg (h.called r)
theorem pending_good {s : S} (r : Reach any s) {i : Nat} {c : Call} (h : pending i s.log = some c) (hg : Good i s.log) : Fresh i s := good_fresh r hg (pending_called h)

/-! ## Tame programs -/

theorem reach_tlog {s : S} (r : Reach Tame s) : TLog s := by
  induction r with
  | init a e => exact ⟨by simp [init, Ev.kind], by simp [init]⟩
  | step r a ho hs ih => exact ih.step r ho hs

theorem TLog.plain {s : S} (h : TLog s) (i : Nat) : Plain i s.log :=
  ⟨fun _ hk => h.1 _ hk rfl, fun c hc => ⟨fun id dl e => absurd e ((h.2 i c hc).1 id dl), (h.2 i c hc).2⟩⟩

/-- in a tame program every coroutine is good -/
theorem tame_good {s : S} (r : Reach Tame s) (i : Nat) : Good i s.log := ⟨(reach_tlog r).plain i, fun k _ => (reach_tlog r).plain k⟩

end Neco.Rt
