import Verif.Proof.RtRef
/-!
# The reference counts and the references of the program
-/
namespace Neco.Rt
open Neco.Err

theorem refs_other {e : Ev} {c : Nat} (l : List Ev) (h : e.kind ≠ .call) : refs c (e :: l) = refs c l := by
  cases e <;> first | rfl | exact absurd rfl h
theorem refs_app {ks : List Kind} {es l : List Ev} {c : Nat} (h : ∀ e ∈ es, e.kind ∈ ks) (hk : .call ∉ ks) : refs c (es ++ l) = refs c l := by
  induction es with
  | nil => rfl
  | cons e es ih => rw [List.cons_append, refs_other _ (fun e' => hk (e' ▸ h e List.mem_cons_self)), ih (fun x hx => h x (List.mem_cons_of_mem _ hx))]

theorem stepKinds_call {s : S} {a : Act} (h : ∀ c, a ≠ .call c) : Kind.call ∉ stepKinds s a := by
  cases a <;> simp only [stepKinds] <;> try (simp; done)
  · exact absurd rfl (h _)
  · split
    · cases hp : (s.co _).pc <;> simp [pcKinds]
      rename_i b; cases b <;> simp [pcKinds]
    · cases hm : s.main <;> simp [mainKinds]
theorem refs_call {s s' : S} {c : Call} {i : Nat} (hs : step s (.call c) = some s') (hc : s.sco.cur = some i) (k : Nat) : refs k s'.log = refs k (.call i c :: s.log) := by
  obtain ⟨fs, h1, h2⟩ := call_log hs hc
  rw [h1, refs_app h2 (callKinds_call c)]
theorem refs_quiet {s s' : S} {a : Act} (hs : step s a = some s') (h : ∀ c, a ≠ .call c) (k : Nat) : refs k s'.log = refs k s.log := by
  obtain ⟨es, h1, h2⟩ := step_adds hs
  rw [h1, refs_app h2 (stepKinds_call h)]

/-- the generator record of a coroutine at its release -/
def relAft : Aft → Bool
  | .genRel _ _ => true
  | _ => false
def grelPc : Pc → Bool
  | .go a | .yck _ a | .yld _ a => relAft a
  | _ => false
theorem grelPc_past {p : Pc} (h : grelPc p = true) : pastPc p = true := by
  cases p <;> simp only [grelPc] at h <;> try (cases h; done)
  all_goals (rename_i a; cases a <;> first | rfl | cases h)

theorem tauCo_rel {s s' : S} {i : Nat} (h : tauCo s i = some s') (h0 : grelPc (s.co i).pc = true → (s.co i).gen ≠ none) (h1 : grelPc (s'.co i).pc = true) : (s'.co i).gen ≠ none := by
  have hst := tauCo_stat (j := i) h
  have hg : (∀ x y, (s.co i).pc ≠ .go (.genRel x y)) → (s.co i).gen ≠ none → (s'.co i).gen ≠ none := by
    intro hn
    rcases hst with h | ⟨_, ⟨_, h, h'⟩ | ⟨_, _, h, _, h'⟩ | ⟨_, _, h, h'⟩⟩
    · rw [stat_gen h]; exact id
    · rw [stat_gen h']; exact id
    · rw [stat_gen h']; exact id
    · exact absurd h (hn _ _)
  unfold tauCo at h
  split at h
  case h_1 => cases h
  case h_2 => cases h
  case h_3 => cases h
  case h_4 => cases h; exfalso; revert h1; unfold doRet; split <;> simp [grelPc, upd_co]
  case h_5 n a hp =>
    refine hg (by rw [hp]; simp) (h0 ?_); rw [hp]
    (repeat' split at h) <;> cases h
    · rw [pc_setPc] at h1; cases h1
    · rw [pc_setPc] at h1; exact h1
    · rw [pc_coyield] at h1; exact h1
  case h_6 n a hp =>
    refine hg (by rw [hp]; simp) (h0 ?_); rw [hp]
    cases h; rw [pc_coyield] at h1; exact h1
  case h_7 a hp =>
    cases h
    cases a with
    | ret v => simp [doAft, grelPc] at h1
    | condEnq => exfalso; revert h1; simp only [doAft, cvEnq]; split <;> simp_all [grelPc, relAft]
    | genRel =>
      have := h0 (by rw [hp]; rfl)
      simp only [doAft] at h1; split at h1
      · simp [grelPc, relAft] at h1
      · contradiction
    | exitTail => 
      exfalso; revert h1; simp only [doAft]; split
      · rw [(pc_yfsr ..).choose_spec]; simp [grelPc, relAft]
      · simp [grelPc, relAft]
    | fin a => exfalso; revert h1; simp [doAft, doFin, grelPc]
  case h_8 => cases h; simp [grelPc] at h1
  case h_9 b _ => cases h; exfalso; revert h1; cases b <;> simp only [afterBlk] <;> (repeat' split) <;> simp [grelPc, relAft]
  case h_10 hp =>
    exfalso; revert h1
    (split at h) <;> cases h
    · unfold doCancel; (try dsimp only); (repeat' split) <;> simp_all [grelPc, relAft]
    · simp [hp, grelPc]
  case h_11 hp =>
    exfalso; revert h1
    (split at h) <;> cases h
    · unfold doRelock finishLock; (try dsimp only); (repeat' split) <;> simp_all [grelPc, relAft]
    · simp [hp, grelPc]
  case h_12 => cases h; simp [grelPc] at h1
  case h_13 a hp =>
    refine hg (by rw [hp]; simp) ?_
    have ex : ∀ x, grelPc ((exitNotify s i x).co i).pc = true → (s.co i).gen ≠ none := by
      intro x hx hn
      unfold exitNotify at hx; dsimp only at hx
      split at hx
      · simp [grelPc, relAft] at hx
      · rename_i hg'; simp [hn] at hg'
    cases h
    revert h1
    unfold doExit; (repeat' split)
    · intro h1; simp [upd_co, hp, grelPc] at h1
    · exact ex _
    · exact ex _

/-- a coroutine that is about to release its generator has one -/
theorem reach_rel {ok} {s : S} (r : Reach ok s) (i : Nat) (h : grelPc (s.co i).pc = true) : (s.co i).gen ≠ none := by
  induction r with
  | init a e =>
    have : ((init a e).co i).pc = .user := by unfold init; dsimp only; split <;> rfl
    rw [this] at h; cases h
  | @step s s' r a hok hs ih =>
    have hw := reach_scoWF r
    rcases step_pcs r hs i with h1 | ⟨_, _, h1⟩ | ⟨c, ha, hc, hu, h1⟩ | ⟨_, _, _, h1⟩ | ⟨ha, hc, h1⟩ | ⟨_, _, _, h1⟩
    · rw [h1] at h
      rcases step_stat hw hs i with ⟨h3, h4⟩ | ⟨cl, ha, hc, hp, h3⟩ | ⟨k, g, ha, hi', hj, h3⟩ | ⟨x, ha, hc, hp, h3⟩ | ⟨x, q, ha, hc, hp, hq, h3⟩ | ⟨x, y, ha, hc, hp, h3⟩
      · rw [stat_gen h3]; exact ih h
      · rw [hp] at h; cases h
      · rw [h3, (newCo_pc s k g).1] at h1; rw [← h1] at h; cases h
      · rw [hp] at h; cases h
      · rw [hp] at h; cases h
      · exfalso
        have := ih h
        unfold Rt.step at hs
        split at hs
        · cases hs
        simp only [ha, hc] at hs
        unfold tauCo at hs; rw [hp] at hs; simp only [doAft, Option.some.injEq] at hs
        split at hs
        · subst hs; rw [pc_setPc, hp] at h1; cases h1
        · contradiction
    · rw [h1] at h; cases h
    · subst h1
      have := doCall_past (callSt s i c) i c (by rw [callSt_field Co.pc (by intros; rfl), hu]; rfl) (cur_le hw hc).2
      rw [grelPc_past h] at this; cases this
    · rw [h1, pc_setPc] at h; cases h
    · exact tauCo_rel h1 ih h
    · rw [h1] at h; cases h

/-- two coroutines do not share a generator -/
theorem gen_inj {ok} {s : S} (r : Reach ok s) {i j k : Nat} (hi : (s.co i).gen = some k) (hj : (s.co j).gen = some k) : i = j := by
  have E := reach_invE r
  have f : ∀ i, (s.co i).gen = some k → genOf i s.log = some k := by
    intro i hi
    rcases E.co i with h | ⟨h, _⟩
    · rw [← h]; exact hi
    · rw [hi] at h; cases h
  exact genOf_inj (f i hi) (f j hj)

theorem gen_lt {ok} {s : S} (r : Reach ok s) {i k : Nat} (hi : (s.co i).gen = some k) : k < s.nchan := by
  rcases (reach_invE r).co i with h | ⟨h, _⟩
  · rw [hi] at h
    have := genOf_lt h.symm
    rw [makers_made, ← (reach_invK2 r).n] at this; exact this
  · rw [hi] at h; cases h

/-- how a step changes who has which generator -/
theorem step_gen {ok} {s s' : S} {a : Act} (r : Reach ok s) (hs : step s a = some s') (j : Nat) :
    (s'.co j).gen = (s.co j).gen ∨ (a = .call .genStart ∧ j = s.sco.nextId + 1 ∧ (s.co j).gen = none ∧ (s'.co j).gen = some s.nchan) ∨
    (a = .tau ∧ s.sco.cur = some j ∧ (∃ x y, (s.co j).pc = .go (.genRel x y)) ∧ (s'.co j).gen = none) := by
  have hw := reach_scoWF r
  rcases step_stat hw hs j with ⟨h3, h4⟩ | ⟨cl, ha, hc, hp, h3⟩ | ⟨k, g, ha, hi', hj, h3⟩ | ⟨x, ha, hc, hp, h3⟩ | ⟨x, q, ha, hc, hp, hq, h3⟩ | ⟨x, y, ha, hc, hp, h3⟩
  · exact .inl (stat_gen h3)
  · left; rw [stat_gen h3, callStat_gen]
  · have hg0 : (newCo s k g).gen = g := by
      unfold newCo; split
      · rfl
      · rename_i c x q e
        have := (reach_invT r).pool (c, x) (by rw [e]; simp)
        cases g <;> simp_all
    have hold : (s.co j).gen = none := by
      rcases (reach_invE r).co j with h | ⟨h, _⟩
      · rw [h]
        refine genOf_fresh (fun hm => ?_)
        have := (reach_invA r).st
        rw [show rl s = s.log.filter Ev.rare from rfl, starts_filter] at this
        rw [this] at hm
        simp at hm; omega
      · exact h
    rcases ha with ⟨ha, rfl⟩ | ⟨ha, rfl⟩
    · left; rw [h3, hg0, hold]
    · right; left; exact ⟨ha, hj, hold, by rw [h3, hg0]⟩
  · left; rw [stat_gen h3]
  · left; rw [stat_gen h3]
  · exact .inr (.inr ⟨ha, hc, ⟨x, y, hp⟩, stat_gen h3⟩)

end Neco.Rt
