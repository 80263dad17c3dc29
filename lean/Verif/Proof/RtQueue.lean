import Verif.Proof.RtJoin
/-!
# Entering queues, and being woken from the main loop
-/
namespace Neco.Rt
open Neco.Err

/-- the steps inside the library that block -/
theorem tauCo_blk {s s' : S} {i : Nat} {b : Blk} (hs : tauCo s i = some s') (hp : (s'.co i).pc = .blk b) :
    (b = .cond ∧ (s.co i).pc = .go .condEnq) ∨ (b = .relock ∧ (s.co i).pc = .relock) ∨ (b = .cancel ∧ (s.co i).pc = .cancelTry) := by
  unfold tauCo at hs
  split at hs
  · cases hs
  · cases hs
  · cases hs
  · cases hs; unfold doRet at hp; split at hp
    · rw [pc_setPc] at hp; cases hp
    · simp [upd_co] at hp
  · (repeat' split at hs) <;> cases hs
    · rw [pc_setPc] at hp; cases hp
    · rw [pc_setPc] at hp; cases hp
    · rw [pc_coyield] at hp; cases hp
  · cases hs; rw [pc_coyield] at hp; cases hp
  · rename_i a e; cases hs
    cases a with
    | ret v => simp only [doAft] at hp; rw [pc_retv] at hp; cases hp
    | condEnq =>
      simp only [doAft] at hp
      split at hp
      · unfold cvEnq at hp; dsimp only at hp; rw [pc_copause] at hp; cases hp; exact .inl ⟨rfl, e⟩
      · simp only [e] at hp; cases hp
    | genRel x y => simp only [doAft] at hp; split at hp
                    · rw [pc_setPc] at hp; cases hp
                    · simp only [e] at hp; cases hp
    | exitTail x y => simp only [doAft] at hp; split at hp
                      · obtain ⟨k, h⟩ := pc_yfsr s i 0 (.fin y); rw [h] at hp; cases hp
                      · rw [pc_setPc] at hp; cases hp
    | fin x => simp only [doAft, doFin] at hp; rw [pc_setPc] at hp; cases hp
  · cases hs; rw [pc_retv] at hp; cases hp
  · rename_i b' e; cases hs
    cases b' <;> simp only [afterBlk] at hp <;> (repeat' split at hp) <;> first
      | (rw [pc_retv] at hp; cases hp; done) | (rw [pc_setPc] at hp; cases hp; done)
  · rename_i e; split at hs <;> cases hs
    · unfold doCancel at hp; dsimp only at hp; (repeat' split at hp)
      · rw [pc_retv] at hp; cases hp
      · rw [pc_retv] at hp; cases hp
      · rw [pc_scoResume, pc_setPc] at hp; cases hp
      · rw [pc_copause] at hp; cases hp; exact .inr (.inr ⟨rfl, e⟩)
    · simp only [e] at hp; cases hp
  · rename_i e; split at hs <;> cases hs
    · unfold doRelock at hp; (repeat' split at hp)
      · rw [pc_retv] at hp; cases hp
      · rw [pc_setPc] at hp; cases hp
      · rw [pc_setPc] at hp; cases hp
      · unfold finishLock at hp; dsimp only at hp; rw [pc_copause] at hp; cases hp; exact .inr (.inl ⟨rfl, e⟩)
    · simp only [e] at hp; cases hp
  · cases hs; rw [pc_retv] at hp; cases hp
  · rename_i a e; cases hs
    have he : (s.co i).pc.exiting = true := by rw [e]; rfl
    have : tauCo s i = some (doExit s i a) := by unfold tauCo; rw [e]
    have := tauCo_exiting this he
    rw [hp] at this; cases this

theorem wakeAll_cur {s : S} (h : s.sco.cur = none) (q : List Nat) : (wakeAll s q).sco.cur = none := by
  induction q generalizing s with
  | nil => exact h
  | cons i q ih => exact ih (resume_main_cur h i)

theorem resume_main {x : Sco} (h : x.cur = none) (id : Nat) : x.resume id = if id ∈ x.paused then x.wake id else x := by
  unfold Sco.resume; split
  · unfold Sco.yield; rw [show (x.wake id).cur = none from h]
  · rfl

theorem wakeAll_keep {s : S} (h : s.sco.cur = none) {q : List Nat} {i : Nat} (hi : i ∈ s.sco.yielders) : i ∈ (wakeAll s q).sco.yielders := by
  induction q generalizing s with
  | nil => exact hi
  | cons k q ih =>
    refine ih (s := scoResume s k) (resume_main_cur h k) ?_
    simp only [scoResume, resume_main h]; split
    · simp [Sco.wake, hi]
    · exact hi

theorem wakeAll_ready {s : S} (h : s.sco.cur = none) {q : List Nat} {i : Nat} (hq : i ∈ q) (hi : i ∈ s.sco.paused) : i ∈ (wakeAll s q).sco.yielders := by
  induction q generalizing s with
  | nil => cases hq
  | cons k q ih =>
    by_cases hk : i = k
    · subst hk
      refine wakeAll_keep (s := scoResume s i) (resume_main_cur h i) ?_
      simp only [scoResume, resume_main h, if_pos hi]; simp [Sco.wake]
    · have hq' : i ∈ q := by simpa [hk] using hq
      refine ih (s := scoResume s k) (resume_main_cur h k) hq' ?_
      simp only [scoResume]; exact mem_resume.mpr ⟨hi, hk⟩

/-! ## Nobody waits for the end of a coroutine that is gone -/

def InvQ (s : S) : Prop := ∀ t n, n ∈ s.lists (.joinQ t) ∨ n ∈ s.lists (.cancelQ t) → t ∈ s.all

theorem sub_empty {s t : S} {L : LName} (h : ∀ i, SubO i s t) (h1 : L ≠ .resumers) (h2 : L ≠ .iolist) (he : s.lists L = []) : t.lists L = [] := by
  cases hl : t.lists L with
  | nil => rfl
  | cons n q =>
    obtain ⟨o, a1, a2⟩ := (h (n.owner + 1)).h L h1 h2
    rw [he, hl] at a2
    have := a1 n (a2.subset (by simp))
    omega

theorem schedAll_lists {s : S} {K L : LName} {q : List Node} (h : L ≠ .resumers) (he : s.lists L = []) : (schedAll s K q).lists L = [] := by
  induction q generalizing s with
  | nil => exact he
  | cons n q ih =>
    simp only [schedAll]; refine ih ?_
    show (push s .resumers (.co n.owner)).lists L = []
    simp [push, setList, rm, h, he]

theorem exitNotify_empty (s : S) (i : Nat) (a : Bool) : (exitNotify s i a).lists (.joinQ i) = [] ∧ (exitNotify s i a).lists (.cancelQ i) = [] := by
  have key : ∀ t0 : S, ∀ q1 q2, let u := schedAll (setList (schedAll (setList t0 (.cancelQ i) []) (.cancelQ i) q1) (.joinQ i) []) (.joinQ i) q2
      u.lists (.joinQ i) = [] ∧ u.lists (.cancelQ i) = [] := by
    intro t0 q1 q2
    refine ⟨schedAll_lists (by simp) (by simp [setList]), schedAll_lists (by simp) ?_⟩
    show (if LName.cancelQ i = LName.joinQ i then [] else (schedAll (setList t0 (.cancelQ i) []) (.cancelQ i) q1).lists (.cancelQ i)) = []
    rw [if_neg (by simp)]
    exact schedAll_lists (by simp) (by simp [setList])
  have k2 := key { s with all := s.all.filter (fun j => decide (j ≠ i)), allCount := s.allCount - 1, log := .exit i :: s.log } (s.lists (.cancelQ i)) ((schedAll (setList { s with all := s.all.filter (fun j => decide (j ≠ i)), allCount := s.allCount - 1, log := .exit i :: s.log } (.cancelQ i) []) (.cancelQ i) (s.lists (.cancelQ i))).lists (.joinQ i))
  clear key
  dsimp only at k2
  unfold exitNotify; dsimp only
  (repeat' split)
  · exact k2
  · exact k2
  · exact k2
  · rename_i ch _ _
    have hc : ∀ (u : S) g ch a, ∀ j, SubO j u (chanClose1 u i g ch a) := by
      intro u g ch a j
      unfold chanClose1; dsimp only; split
      · exact .of_eq (by simp)
      · have h1 := closeLoop_sub (i := j) (s := setChan u g { ch with sclosed := true }) g ((setChan u g { ch with sclosed := true }).lists (.chanQ g)) (List.Sublist.refl _)
        exact h1.mid rfl (by simp)
    exact ⟨sub_empty (hc _ _ _ _) (by simp) (by simp) k2.1, sub_empty (hc _ _ _ _) (by simp) (by simp) k2.2⟩

theorem InvQ.step {ok} {s s' : S} {a : Act} (h : InvQ s) (r : Reach ok s) (hok : ok s a) (hs : Rt.step s a = some s') : InvQ s' := by
  have r' : Reach ok s' := .step r a hok hs
  have hA := reach_invA r
  have hA' := reach_invA r'
  have hw := reach_scoWF r
  have hL' := reach_invL r'
  intro t n hn
  -- where does the node come from?
  have hin : t ∈ s.all := by
    have h2 : ∀ L, (L = .joinQ t ∨ L = .cancelQ t) → n ∈ s'.lists L → t ∈ s.all := by
      intro L hL hm
      obtain ⟨o, ho, hsub⟩ := step_subO hs (L := L) (by rcases hL with rfl | rfl <;> simp) (by rcases hL with rfl | rfl <;> simp)
      rcases List.mem_append.mp (hsub.subset hm) with hm' | hm'
      · exact h t n (by rcases hL with rfl | rfl; exact .inl hm'; exact .inr hm')
      · have hc := ho n hm'
        have hp := hL'.pl L n hm
        -- the running coroutine entered
        by_cases hold : n ∈ s.lists L
        · exact h t n (by rcases hL with rfl | rfl; exact .inl hold; exact .inr hold)
        have hb : (∃ dl, (s'.co n.owner).pc = .blk .join ∧ (s'.co n.owner).call = .join t dl ∧ L = .joinQ t) ∨ (∃ dl, (s'.co n.owner).pc = .blk .cancel ∧ (s'.co n.owner).call = .cancel t dl ∧ L = .cancelQ t) := by
          rcases hL with rfl | rfl <;> cases n <;> simp only [place] at hp
          · obtain ⟨h1, dl, h2⟩ := hp; exact .inl ⟨dl, h1, h2, rfl⟩
          · obtain ⟨h1, dl, h2⟩ := hp; exact .inr ⟨dl, h1, h2, rfl⟩
        generalize n.owner = i at hc hb
        unfold Rt.step at hs
        split at hs
        · cases hs
        cases a with
        | call c =>
          simp only [hc] at hs
          split at hs <;> cases hs
          have hcl := doCall_call (s := upd (note s (.call i c)) i (fun k => { k with call := c })) (i := i) c (cur_le hw hc).2
          have hcl2 : ((upd (note s (.call i c)) i (fun k => { k with call := c })).co i).call = c := by simp [upd_co]
          rw [hcl, hcl2] at hb
          rcases hb with ⟨dl, hb, rfl, _⟩ | ⟨dl, hb, rfl, _⟩
          · simp only [doCall, doJoin] at hb
            (repeat' split at hb) <;> first | (rw [pc_retv] at hb; cases hb; done) | skip
            rename_i h1 _ _; simpa using h1
          · simp only [doCall] at hb; rw [pc_setPc] at hb; cases hb
        | tau =>
          simp only [hc] at hs
          rcases hb with ⟨dl, hb, hcc, _⟩ | ⟨dl, hb, hcc, _⟩
          · rcases tauCo_blk hs hb with ⟨h1, _⟩ | ⟨h1, _⟩ | ⟨h1, _⟩ <;> cases h1
          · rcases tauCo_blk hs hb with ⟨h1, _⟩ | ⟨h1, _⟩ | ⟨_, h1⟩
            · cases h1
            · cases h1
            · unfold tauCo at hs; rw [h1] at hs; simp only at hs
              split at hs <;> cases hs
              · rename_i id dl' e
                unfold doCancel at hb hcc; dsimp only at hb hcc
                (repeat' split at hb) <;> first | (rw [pc_retv] at hb; cases hb; done) | (rw [pc_scoResume, pc_setPc] at hb; cases hb; done) | skip
                rename_i g1 g2 g3
                rw [if_neg g1, if_neg g2, if_neg g3] at hcc
                have : ∀ (u : S) dl b, ((copause u i dl b).co i).call = (u.co i).call := by
                  intro u dl b; rw [copause_co]; simp; split <;> rfl
                rw [this] at hcc
                simp [push_co, dlClear, upd_co, e] at hcc
                rw [← hcc.1]; simpa using g1
              · simp only [h1] at hb; cases hb
        | finish =>
          simp only [hc] at hs; split at hs <;> cases hs
          rcases hb with ⟨dl, hb, _⟩ | ⟨dl, hb, _⟩ <;> (rw [pc_setPc] at hb; cases hb)
        | submit o =>
          simp only [hc] at hs; split at hs
          · rename_i hwt
            split at hs <;> cases hs
            · rcases hb with ⟨dl, hb, _⟩ | ⟨dl, hb, _⟩ <;> simp [setPc, upd_co] at hb
            · rcases hb with ⟨dl, hb, _⟩ | ⟨dl, hb, _⟩ <;> simp [hwt] at hb
          · cases hs
        | events evs => simp only [hc] at hs; split at hs <;> simp_all
        | clock t => simp only at hs; split at hs <;> cases hs; exact absurd hm hold
        | signal n => simp only at hs; (repeat' split at hs) <;> cases hs <;> exact absurd hm hold
        | wdone k =>
          simp only at hs; split at hs <;> cases hs
          have hm2 := (mem_push.mp hm)
          rcases hm2 with hm2 | hm2
          · exact absurd hm2.1 hold
          · rcases hL with rfl | rfl <;> simp at hm2
    rcases hn with hn | hn
    · exact h2 _ (.inl rfl) hn
    · exact h2 _ (.inr rfl) hn
  obtain ⟨es, he1, he2⟩ := step_rl hs
  rw [hA.al] at hin
  rw [hA'.al, he1]
  have keep : ∀ es : List Ev, (∀ k, .exit k ∈ es → k ≠ t) → t ∈ live (es ++ rl s) := by
    intro es
    induction es with
    | nil => intro _; exact hin
    | cons e es ih =>
      intro hh
      have hr := ih (fun k hk => hh k (List.mem_cons_of_mem _ hk))
      cases e <;> simp only [List.cons_append, live] <;> first | exact hr | skip
      · exact List.mem_cons_of_mem _ hr
      · rename_i k
        rw [List.mem_filter]; exact ⟨hr, by simp; exact fun e => hh k (by simp) e.symm⟩
  apply keep
  intro k hk e
  subst e
  cases he2 with
  | tau i hc es ht =>
    cases ht <;> simp at hk
    rename_i x hp hq
    subst hk
    have : s' = exitNotify s k x := by
      unfold Rt.step at hs
      split at hs
      · cases hs
      simp only [hc] at hs
      unfold tauCo at hs; rw [hp] at hs; simp at hs; subst hs
      unfold doExit; split
      · rename_i hx; rw [hq hx]
      · rfl
    subst this
    have := exitNotify_empty s k x
    rw [this.1, this.2] at hn; simp at hn
  | _ => simp at hk

theorem reach_invQ {ok} {s : S} (r : Reach ok s) : InvQ s := by
  induction r with
  | init a e => intro t n h; simp [init] at h
  | step r a hok hs ih => exact ih.step r hok hs

end Neco.Rt
