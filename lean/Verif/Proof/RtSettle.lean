import Verif.Proof.RtFits
/-!
# The step that settles the result of a call, and history lemmas
-/
namespace Neco.Rt
open Neco.Err

/-- the step in which the value a coroutine is about to return was settled -/
def Settled (ok : S → Act → Prop) (j : Nat) (c : Call) (v : Int) (d : Msg) (l : List Ev) : Prop :=
  ∃ s0 s1 a es, Reach ok s0 ∧ ok s0 a ∧ s0.sco.cur = some j ∧ Rt.step s0 a = some s1 ∧ (a = .call c ∨ (a = .tau ∧ (s0.co j).call = c ∧ ∀ w, (s0.co j).pc ≠ .ret w)) ∧
    (s1.co j).pc = .ret v ∧ (s1.co j).call = c ∧ (s1.co j).rdat = d ∧ l = es ++ s1.log ∧ ∀ e ∈ es, isCallOf j e = false

theorem Settled.ext {ok} {j : Nat} {c : Call} {v : Int} {d : Msg} {l fs : List Ev} (h : Settled ok j c v d l) (hf : ∀ e ∈ fs, isCallOf j e = false) : Settled ok j c v d (fs ++ l) := by
  obtain ⟨s0, s1, a, es, h1, h2, h3, h4, h5, h6, h7, h8, h9, h10⟩ := h
  refine ⟨s0, s1, a, fs ++ es, h1, h2, h3, h4, h5, h6, h7, h8, by rw [h9, List.append_assoc], fun e he => ?_⟩
  rcases List.mem_append.mp he with he | he
  · exact hf e he
  · exact h10 e he

/-- a result on its way was settled in some step -/
def InvR (ok : S → Act → Prop) (j : Nat) (s : S) : Prop := ∀ v, (s.co j).pc = .ret v → Settled ok j (s.co j).call v (s.co j).rdat s.log

theorem InvR.step {ok} {s s' : S} {a : Act} {j : Nat} (h : InvR ok j s) (r : Reach ok s) (hok : ok s a) (hs : Rt.step s a = some s') : InvR ok j s' := by
  have hw := reach_scoWF r
  intro v hv
  by_cases hj : s.sco.cur = some j
  · by_cases hc : ∃ c, a = .call c
    · obtain ⟨c, rfl⟩ := hc
      have hcl : (s'.co j).call = c := by
        have hs0 := hs
        unfold Rt.step at hs
        split at hs
        · cases hs
        simp only [hj] at hs
        split at hs <;> cases hs
        rename_i hp
        rw [doCall_call (s := upd (note s (.call j c)) j (fun k => { k with call := c })) (i := j) c (cur_le hw hj).2]; simp [upd_co]
      exact ⟨s, s', _, [], r, hok, hj, hs, .inl (by rw [hcl]), hv, rfl, rfl, rfl, by simp⟩
    · have hnc : ∀ c, a = .call c → s.sco.cur ≠ some j := fun c e => absurd ⟨c, e⟩ hc
      obtain ⟨es, hes, hes2⟩ := step_noCall hs hnc
      have hst := step_stat hw hs j
      have hs0 := hs
      unfold Rt.step at hs
      split at hs
      · cases hs
      have quiet : (s'.co j) = s.co j → Settled ok j (s'.co j).call v (s'.co j).rdat s'.log := by
        intro e
        rw [e] at hv ⊢
        rw [hes]; exact (h v hv).ext hes2
      cases a with
      | call c => exact absurd ⟨c, rfl⟩ hc
      | finish =>
        simp only [hj] at hs
        split at hs <;> cases hs
        rw [pc_setPc] at hv; cases hv
      | tau =>
        simp only [hj] at hs
        by_cases hx : ∃ w, (s.co j).pc = .ret w
        · obtain ⟨w, hx⟩ := hx
          unfold tauCo at hs; rw [hx] at hs; simp at hs; subst hs
          unfold doRet at hv; split at hv
          · rw [pc_setPc] at hv; cases hv
          · simp [upd_co] at hv
        · have hcl : (s'.co j).call = (s.co j).call := by
            rcases hst with ⟨h3, h4⟩ | ⟨c, ha, hc, hp, h3⟩ | ⟨i, g, ha, hi', hj, h3⟩ | ⟨v, ha, hc, hp, h3⟩ | ⟨x, q, ha, hc, hp, hq, h3⟩ | ⟨x, y, ha, hc, hp, h3⟩
            · exact stat_call h3
            · cases ha
            · simp at ha
            · exact absurd ⟨_, hp⟩ hx
            · exact (stat_call h3).trans rfl
            · exact (stat_call h3).trans rfl
          exact ⟨s, s', .tau, [], r, hok, hj, hs0, .inr ⟨rfl, hcl.symm, fun w hw => hx ⟨w, hw⟩⟩, hv, rfl, rfl, rfl, by simp⟩
      | submit ok' =>
        simp only [hj] at hs
        split at hs
        · rename_i hp
          split at hs <;> cases hs
          · simp only [pc_setPc] at hv; cases hv
          · simp only [hp] at hv; cases hv
        · cases hs
      | events evs =>
        simp only at hs
        split at hs
        · rename_i h1; rw [hj] at h1; simp at h1
        · cases hs
      | clock t => simp only at hs; split at hs <;> cases hs; exact quiet rfl
      | signal n => simp only at hs; (repeat' split at hs) <;> cases hs <;> exact quiet rfl
      | wdone k => simp only at hs; split at hs <;> cases hs; exact quiet rfl
  · by_cases hn : (a = .call .start ∨ a = .call .genStart) ∧ j = s.sco.nextId + 1
    · obtain ⟨ha, rfl⟩ := hn
      obtain ⟨i, g, _, e1, _⟩ := start_new ha hs
      have := newCo_pc s i g
      rw [e1, this.1] at hv; cases hv
    · have hm := step_other (reach_invL r) (reach_invC r) hs hj (fun ha e => hn ⟨ha, e⟩) (((reach_invF r).cf j).evU)
      obtain ⟨es, hes, hes2⟩ := step_noCall hs (fun _ _ => hj)
      rw [hm.pc.1] at hv
      rw [hm.pc.2, hm.rdat hv, hes]
      exact (h v hv).ext hes2

theorem reach_invR {ok} {s : S} (r : Reach ok s) (j : Nat) : InvR ok j s := by
  induction r with
  | init a e =>
    intro v hv
    have : ((init a e).co j).pc = .user := by unfold init; dsimp only; split <;> rfl
    rw [this] at hv; cases hv
  | step r a hok hs ih => exact ih.step r hok hs

/-- every result was settled in one step of the calling coroutine -/
theorem returns_settled {ok} {s : S} {i : Nat} {c : Call} {v : Int} {d : Msg} (r : Reach ok s) (h : Returns s i c v d) : Settled ok i c v d s.log := by
  obtain ⟨h1, h2, h3, h4, h5⟩ := h.elim
  have := reach_invR r i v h2
  rwa [h3, h4] at this

/-! ## Histories -/

theorem since_filter {j : Nat} {p : Ev → Bool} (hp : ∀ e, isCallOf j e = true → p e = true) (l : List Ev) : since j (l.filter p) = (since j l).filter p := by
  induction l with
  | nil => rfl
  | cons e l ih =>
    unfold since at ih ⊢
    by_cases h : isCallOf j e = true
    · rw [List.filter_cons, if_pos (hp e h)]; simp [h]
    · have h' : isCallOf j e = false := by simpa using h
      by_cases h2 : p e = true
      · rw [List.filter_cons, if_pos h2]; simp [h', ih, h2]
      · rw [List.filter_cons, if_neg h2]; simp [h', ih, h2]

theorem about_call {j : Nat} {e : Ev} (h : isCallOf j e = true) : e.about j = true := by
  cases e <;> simp_all [isCallOf, Ev.about]

theorem sn_since (j : Nat) (s : S) : sn j s = (since j s.log).filter (Ev.about j) := since_filter (fun _ => about_call) _
theorem mem_sn {j : Nat} {s : S} {e : Ev} (h : e ∈ sn j s) : e ∈ since j s.log := by rw [sn_since, List.mem_filter] at h; exact h.1
theorem mem_lg {j : Nat} {s : S} {e : Ev} (h : e ∈ lg j s) : e ∈ s.log := by unfold lg at h; rw [List.mem_filter] at h; exact h.1
theorem mem_since {j : Nat} {l : List Ev} {e : Ev} (h : e ∈ since j l) : e ∈ l := (List.takeWhile_sublist _).subset h

/-- a property of every event together with the history before it -/
def Hist (P : Ev → List Ev → Prop) : List Ev → Prop
  | [] => True
  | e :: l => P e l ∧ Hist P l

theorem Hist.split {P : Ev → List Ev → Prop} {l a b : List Ev} {e : Ev} (h : Hist P l) (hl : l = a ++ e :: b) : P e b := by
  induction a generalizing l with
  | nil => subst hl; exact h.1
  | cons x a ih => subst hl; exact ih h.2 rfl

theorem Hist.append {P : Ev → List Ev → Prop} {es l : List Ev} (h : Hist P l) (he : ∀ e ∈ es, ∀ b, P e b) : Hist P (es ++ l) := by
  induction es with
  | nil => exact h
  | cons e es ih => exact ⟨he e List.mem_cons_self _, ih (fun x hx => he x (List.mem_cons_of_mem _ hx))⟩

theorem Hist.adds {P : Ev → List Ev → Prop} {ks : List Kind} {s t : S} (h : Hist P s.log) (ha : Adds ks s t) (hk : ∀ e b, e.kind ∈ ks → P e b) : Hist P t.log := by
  obtain ⟨es, h1, h2⟩ := ha; rw [h1]; exact h.append (fun e he b => hk e b (h2 e he))

theorem live_sub_starts {l : List Ev} {k : Nat} (h : k ∈ live l) : k ∈ starts l := by
  induction l with
  | nil => cases h
  | cons e l ih =>
    cases e <;> simp only [live, starts] at h ⊢ <;> first | exact ih h | skip
    · rcases List.mem_cons.mp h with rfl | h
      · simp
      · exact List.mem_cons_of_mem _ (ih h)
    · exact ih (List.mem_filter.mp h).1

theorem starts_append (a b : List Ev) : starts (a ++ b) = starts a ++ starts b := by
  induction a with
  | nil => rfl
  | cons e a ih => cases e <;> simp [starts, ih]

/-- a coroutine that is gone does not come back -/
theorem dead_stays {a b : List Ev} {k : Nat} (hn : (starts (a ++ b)).Nodup) (hs : k ∈ starts b) (hd : k ∉ live b) : k ∉ live (a ++ b) := by
  induction a with
  | nil => exact hd
  | cons e a ih =>
    have hn' : (starts (a ++ b)).Nodup := by
      cases e <;> simp only [List.cons_append, starts] at hn <;> first | exact hn | exact (List.nodup_cons.mp hn).2
    have h := ih hn'
    cases e <;> simp only [List.cons_append, live] <;> first | exact h | skip
    · intro hm
      rcases List.mem_cons.mp hm with rfl | hm
      · simp only [List.cons_append, starts, List.nodup_cons] at hn
        exact hn.1 (by rw [starts_append]; exact List.mem_append_right _ hs)
      · exact h hm
    · intro hm; exact h (List.mem_filter.mp hm).1

theorem starts_nodup {ok} {s : S} (r : Reach ok s) : (starts s.log).Nodup := by
  rw [← starts_filter]
  have := (reach_invA r).st
  unfold rl at this; rw [this]; unfold List.Nodup; rw [List.pairwise_reverse]
  exact (List.nodup_range' (s := 1) (n := s.sco.nextId)).imp (fun h e => h e.symm)

theorem all_live {ok} {s : S} (r : Reach ok s) : s.all = live s.log := by
  rw [(reach_invA r).al]; unfold rl; exact live_filter _

theorem mem_starts {ok} {s : S} (r : Reach ok s) {k : Nat} : k ∈ starts s.log ↔ 1 ≤ k ∧ k ≤ s.sco.nextId := by
  rw [← starts_filter]
  have := (reach_invA r).st
  unfold rl at this; rw [this, List.mem_reverse, List.mem_range'_1]; omega

/-! ## Who is known -/

/-- a started coroutine that is not leaving is known -/
def InvK (s : S) : Prop := ∀ i, 1 ≤ i → i ≤ s.sco.nextId → (s.co i).pc.exiting = false → i ∈ s.all

theorem InvK.step {ok} {s s' : S} {a : Act} (h : InvK s) (r : Reach ok s) (hok : ok s a) (hs : Rt.step s a = some s') : InvK s' := by
  intro j h1 h2 h3
  have hA := reach_invA r
  have hA' := hA.step hs
  have hw := reach_scoWF r
  have hnx := nx_step hs hA
  obtain ⟨es, he1, he2⟩ := step_rl hs
  by_cases hn : (a = .call .start ∨ a = .call .genStart) ∧ j = s.sco.nextId + 1
  · obtain ⟨ha, rfl⟩ := hn
    rw [hA'.al, he1]
    cases he2 with
    | start => simp [live]
    | call c i hc hp _ h5 h6 => rcases ha with h | h <;> cases h <;> simp at h5 h6
    | cpop => simp at ha
    | nil _ hn => rcases ha with h | h <;> exact absurd h (hn _)
    | _ => simp at ha
  · have hj : j ≤ s.sco.nextId := by
      rw [hnx] at h2; split at h2
      · rename_i ha; have : j ≠ s.sco.nextId + 1 := fun e => hn ⟨ha, e⟩; omega
      · omega
    have hpc : (s.co j).pc.exiting = false ∧ (∀ k, .exit k ∈ es → k ≠ j) := by
      by_cases hc : s.sco.cur = some j
      · have hs0 := hs
        unfold Rt.step at hs
        split at hs
        · cases hs
        cases a with
        | call c =>
          simp only [hc] at hs
          split at hs <;> cases hs
          rename_i hp
          refine ⟨by rw [hp.1]; rfl, ?_⟩
          cases he2 <;> simp
        | tau =>
          simp only [hc] at hs
          refine ⟨?_, ?_⟩
          · cases hx : (s.co j).pc.exiting with
            | false => rfl
            | true => rw [tauCo_exiting hs hx] at h3; cases h3
          · cases he2 with
            | tau i hi es ht =>
              cases ht <;> simp
              rename_i x hp hq
              rintro rfl
              rw [hc] at hi; cases hi
              rw [tauCo_exiting hs (by rw [hp]; rfl)] at h3; cases h3
            | halt => simp
            | nil => simp
        | finish =>
          simp only [hc] at hs
          split at hs <;> cases hs
          rw [pc_setPc] at h3; cases h3
        | submit o =>
          simp only [hc] at hs
          split at hs
          · rename_i hp
            refine ⟨by rw [hp]; rfl, ?_⟩
            cases he2; simp
          · cases hs
        | events evs =>
          simp only at hs
          split at hs
          · rename_i h1; rw [hc] at h1; simp at h1
          · cases hs
        | clock t => simp only at hs; split at hs <;> cases hs; refine ⟨h3, ?_⟩; cases he2; simp
        | signal n => simp only at hs; (repeat' split at hs) <;> cases hs <;> refine ⟨h3, ?_⟩ <;> cases he2 <;> simp
        | wdone k => simp only at hs; split at hs <;> cases hs; refine ⟨h3, ?_⟩; cases he2 <;> simp
      · have hm := step_other (reach_invL r) (reach_invC r) hs hc (fun ha e => hn ⟨ha, e⟩) (((reach_invF r).cf j).evU)
        refine ⟨by rw [← hm.pc.1]; exact h3, ?_⟩
        cases he2 with
        | tau i hi es ht => cases ht <;> simp; rintro rfl; exact hc hi
        | nil => simp
        | _ => simp
    have hin := h j h1 hj hpc.1
    rw [hA'.al, he1]
    rw [hA.al] at hin
    revert hpc
    intro hpc
    have : ∀ es : List Ev, (∀ k, .exit k ∈ es → k ≠ j) → j ∈ live (es ++ rl s) := by
      intro es
      induction es with
      | nil => intro _; exact hin
      | cons e es ih =>
        intro hh
        have hr := ih (fun k hk => hh k (List.mem_cons_of_mem _ hk))
        cases e <;> simp only [List.cons_append, live] <;> first | exact hr | skip
        · exact List.mem_cons_of_mem _ hr
        · rename_i k
          rw [List.mem_filter]; exact ⟨hr, by simp; exact fun e => hh k (by simp) e.symm⟩
    exact this es hpc.2

theorem reach_invK {ok} {s : S} (r : Reach ok s) : InvK s := by
  induction r with
  | init a e =>
    intro i h1 h2 _
    have : (init a e).sco.nextId = 1 := rfl
    rw [this] at h2
    have : i = 1 := by omega
    subst this; simp [init]
  | step r a hok hs ih => exact ih.step r hok hs

end Neco.Rt
