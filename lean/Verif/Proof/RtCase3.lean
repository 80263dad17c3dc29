import Verif.Proof.RtCase2
/-!
# The slot of a channel that `neco_chan_case` reads: the invariant
-/
namespace Neco.Rt
open Neco.Err

/-- what the slot holds is what was handed to `i` -/
def Corr (c i : Nat) (s : S) : Prop :=
  c < s.nchan ∧ ∀ p, slot s c = some p → (p.1 = true ∧ (dv i s = [.take c i p.2] ∨ dv i s = [.bcastTo c i p.2])) ∨ (p.1 = false ∧ dv i s = [])

theorem Corr.kept {c i : Nat} {s t : S} (h : Corr c i s) (hk : Kept c s t) (hd : dv i t = dv i s) : Corr c i t := by
  refine ⟨Nat.lt_of_lt_of_le h.1 hk.1, fun p hp => ?_⟩
  rcases hk.2 h.1 with e | e
  · rw [hd]; exact h.2 p (by rw [← e]; exact hp)
  · unfold slot at hp; rw [e] at hp; cases hp

structure CaseInv (c i : Nat) (s : S) : Prop where
  w : (s.co i).pc = .blk .sel → ∀ cs dl, (s.co i).call = .select cs dl → c ∈ cs → c < s.nchan ∧ ((s.co i).retIdx = -1 → dv i s = []) ∧ ∀ x : Nat, (s.co i).retIdx = x → cs[x]? = some c → Corr c i s
  g : ∀ x v, (s.co i).pc = .selGot x c v → c < s.nchan ∧ (v = OK → ∃ m, dv i s = [.take c i m] ∧ ∀ p, slot s c = some p → p.2 = m) ∧ (v ≠ OK → dv i s = [])
  t : ∀ v cs, (s.co i).pc = .ret v → selCs (s.co i).call = some cs → 0 ≤ v → cs[v.toNat]? = some c → Corr c i s
  u : (s.co i).pc = .user → ∀ cl v m cs, .ret i cl v m ∈ since i s.log → selCs cl = some cs → 0 ≤ v → cs[v.toNat]? = some c → Corr c i s

theorem CaseInv.deal {c i k : Nat} {s t : S} (h : CaseInv c i s) (hL : InvL s) (hv : view (t.co i) = view (s.co i)) (hd : Deal c i k s t)
    (hr : ∀ cl v m, .ret i cl v m ∈ since i t.log → .ret i cl v m ∈ since i s.log) : CaseInv c i t := by
  simp only [view, Prod.mk.injEq] at hv
  obtain ⟨v1, v2, _, _⟩ := hv
  cases hd with
  | keep h1 h2 h3 =>
    refine ⟨?_, ?_, ?_, ?_⟩
    · rw [v1, v2, h1, h3]
      intro hp cs dl hc hm
      obtain ⟨e1, e2, e3⟩ := h.w hp cs dl hc hm
      exact ⟨Nat.lt_of_lt_of_le e1 h2.1, e2, fun x hx hg => (e3 x hx hg).kept h2 h3⟩
    · rw [v1, h3]
      intro x v hp
      obtain ⟨e1, e2, e3⟩ := h.g x v hp
      refine ⟨Nat.lt_of_lt_of_le e1 h2.1, fun hv => ?_, e3⟩
      obtain ⟨m, h4, h5⟩ := e2 hv
      refine ⟨m, h4, fun p hp => ?_⟩
      rcases h2.2 e1 with e | e
      · exact h5 p (by rw [← e]; exact hp)
      · unfold slot at hp; rw [e] at hp; cases hp
    · rw [v1, v2]; intro v cs a1 a2 a3 a4; exact (h.t v cs a1 a2 a3 a4).kept h2 h3
    · rw [v1]; intro hp cl v m cs a1 a2 a3 a4; exact (h.u hp cl v m cs (hr _ _ _ a1) a2 a3 a4).kept h2 h3
  | other hk x hm h0 h1 h2 =>
    have hp := hL.pl _ _ hm
    simp only [place, Node.owner] at hp
    obtain ⟨hp, cs, dl, hc, hx⟩ := hp
    refine ⟨?_, ?_, ?_, ?_⟩
    · rw [v1, v2, h1]
      intro hp cs' dl' hc' hm'
      rw [hc] at hc'; cases hc'
      refine ⟨Nat.lt_of_lt_of_le (h.w hp cs dl hc hm').1 h2.1, fun e => by omega, fun y hy hg => ?_⟩
      have : x = y := by omega
      subst this; rw [hx] at hg; cases hg; exact absurd rfl hk
    · rw [v1, hp]; intro _ _ h; cases h
    · rw [v1, hp]; intro _ _ h; cases h
    · rw [v1, hp]; intro h; cases h
  | got hk x hm h0 h1 hn h2 =>
    have hp := hL.pl _ _ hm
    simp only [place, Node.owner] at hp
    obtain ⟨hp, cs, dl, hc, hx⟩ := hp
    subst hk
    refine ⟨?_, ?_, ?_, ?_⟩
    · rw [v1, v2, h1]
      intro hp cs' dl' hc' hm'
      rw [hc] at hc'; cases hc'
      obtain ⟨e1, e2, e3⟩ := h.w hp cs dl hc hm'
      refine ⟨by rw [hn]; exact e1, fun e => by omega, fun _ _ _ => ⟨by rw [hn]; exact e1, fun p hp => ?_⟩⟩
      have e2 := e2 h0
      rcases h2 with ⟨m, e, he, h6, h7⟩ | ⟨h6, h7⟩
      · have := h7 p hp; subst this
        rw [h6, e2]
        rcases he with rfl | rfl
        · exact .inl ⟨rfl, .inl rfl⟩
        · exact .inl ⟨rfl, .inr rfl⟩
      · exact .inr ⟨h7 p hp, by rw [h6, e2]⟩
    · rw [v1, hp]; intro _ _ h; cases h
    · rw [v1, hp]; intro _ _ h; cases h
    · rw [v1, hp]; intro h; cases h

theorem pending_noret {i : Nat} {c : Call} {l : List Ev} (h : pending i l = some c) : ∀ cl v d, .ret i cl v d ∉ since i l := by
  intro cl v d
  induction l with
  | nil => simp [since]
  | cons e l ih =>
    intro hm
    unfold since at hm ih
    cases hi : isCallOf i e with
    | true => rw [List.takeWhile_cons_of_neg (by simp [hi])] at hm; cases hm
    | false =>
      rw [List.takeWhile_cons_of_pos (by simp [hi])] at hm
      rcases List.mem_cons.mp hm with hm | hm
      · subst hm; simp [pending] at h
      · refine ih ?_ hm
        cases e <;> simp only [pending] at h <;> first | exact h | skip
        · rename_i j c'; simp [isCallOf] at hi; rwa [if_neg hi] at h
        · split at h
          · cases h
          · exact h

/-- the returns a step adds -/
theorem step_noret {s s' : S} {a : Act} (hs : step s a = some s') {i : Nat} {cl : Call} {v : Int} {d : Msg} {es : List Ev} (he : s'.log = es ++ s.log) (hm : .ret i cl v d ∈ es) :
    a = .tau ∧ s.sco.cur = some i := by
  obtain ⟨fs, h1, h2⟩ := step_rl hs
  have h3 : fs = es.filter Ev.rare := by
    unfold rl at h1; rw [he, List.filter_append] at h1
    exact (List.append_cancel_right h1).symm
  have hm2 : .ret i cl v d ∈ fs := by rw [h3]; exact List.mem_filter.mpr ⟨hm, rfl⟩
  cases h2 with
  | tau j hc es ht =>
    cases ht <;> simp at hm2
    obtain ⟨rfl, _⟩ := hm2; exact ⟨rfl, hc⟩
  | _ => simp at hm2

theorem since_ret {s s' : S} {a : Act} (hs : step s a = some s') {i : Nat} (hi : a ≠ .tau ∨ s.sco.cur ≠ some i) (hc : ∀ c, a = .call c → s.sco.cur ≠ some i) {cl : Call} {v : Int} {d : Msg} (hm : .ret i cl v d ∈ since i s'.log) :
    .ret i cl v d ∈ since i s.log := by
  obtain ⟨es, h1, h2⟩ := step_noCall hs hc
  rw [h1, since_append_no h2] at hm
  rcases List.mem_append.mp hm with hm | hm
  · have := step_noret hs h1 hm
    rcases hi with h | h
    · exact absurd this.1 h
    · exact absurd this.2 h
  · exact hm

/-- a step of another coroutine, or of none -/
theorem step_deal {ok} {s s' : S} {a : Act} (r : Reach ok s) (hs : step s a = some s') {c i : Nat} (ho : Only c i s'.log) (hi : s.sco.cur ≠ some i) (hn : i ≤ s.sco.nextId) (hq : ∀ k, .co i ∉ s.lists (.chanQ k)) :
    ∃ k, Deal c i k s s' := by
  have hf := step_nofault hs
  have ho0 : Only c i s.log := by obtain ⟨es, h⟩ := step_suffix hs; rw [h] at ho; exact ho.mono
  have hoq : ∀ r' x, .case r' x ∈ s.lists (.chanQ c) → r' = i := fun _ _ hm => ho0.queue r hm
  have triv : s'.co i = s.co i → s'.chan = s.chan → s'.nchan = s.nchan → dv i s' = dv i s → ∃ k, Deal c i k s s' := fun h1 h2 h3 h4 =>
    ⟨0, .keep (by rw [h1]) (.of h3 (slot_chan h2)) h4⟩
  have hdv : Kind.call ∉ stepKinds s a → Kind.take ∉ stepKinds s a → Kind.bcastTo ∉ stepKinds s a → dv i s' = dv i s := dv_adds (step_adds hs)
  cases a with
  | call cl =>
    obtain ⟨j, hc, hu, hne, e⟩ := step_call hs
    have hj : i ≠ j := by rintro rfl; exact hi hc
    have hdv0 : dv i (callSt s j cl) = dv i s := by
      rw [dv_append (es := [.call j cl]) rfl (by simp [isCallOf, Ne.symm hj])]; rfl
    have hco : (callSt s j cl).co i = s.co i := by simp [callSt, upd_co, hj]
    obtain ⟨k, hk⟩ := doCall_deal (s := callSt s j cl) hj cl hn (reach_invC r).fresh hq hoq (by
      intro cs hcs hm
      obtain ⟨fs, h1, _⟩ := call_log hs hc
      exact hj (ho j cl cs (by rw [h1]; simp) hcs hm).symm)
    rw [e]
    exact ⟨k, Deal.pre (u := callSt s j cl) (by rw [hco]) rfl hdv0 (fun _ h => h) rfl hk⟩
  | finish =>
    have hd := hdv (by simp [stepKinds]) (by simp [stepKinds]) (by simp [stepKinds])
    simp only [step] at hs; (repeat' split at hs) <;> cases hs
    rename_i j hc _
    have hj : i ≠ j := by rintro rfl; exact hi hc
    exact triv (by rw [setPc_co, if_neg hj]) rfl rfl hd
  | tau =>
    cases hc : s.sco.cur with
    | none =>
      simp only [step, hc] at hs; split at hs
      · cases hs
      have hd : dv i s' = dv i s := dv_adds (tauMain_adds hs) (by unfold mainKinds; split <;> simp) (by unfold mainKinds; split <;> simp) (by unfold mainKinds; split <;> simp)
      obtain ⟨_, h2, h3⟩ := tauMain_Q hs
      exact ⟨0, .keep (tauMain_ri hs i) (.of h3 (slot_chan h2)) hd⟩
    | some j =>
      have hj : i ≠ j := by rintro rfl; exact hi hc
      simp only [step, hc] at hs; split at hs
      · cases hs
      refine tauCo_deal hj hs hoq ?_
      rintro x k v hp rfl
      have hjn := (cur_le (reach_scoWF r) hc).2
      obtain ⟨cs, h1, h2⟩ := reach_found r hf j hjn x k v hp
      exact hj (ho0 j _ cs (call_mem r (sel_ne h1)) h1 (List.mem_of_getElem? h2)).symm
  | submit b =>
    have hd := hdv (by simp [stepKinds]) (by simp [stepKinds]) (by simp [stepKinds])
    simp only [step] at hs; (repeat' split at hs) <;> cases hs
    · rename_i j hc _ _
      have hj : i ≠ j := by rintro rfl; exact hi hc
      exact triv (by show (setPc _ _ _).co i = _; rw [setPc_co, if_neg hj]) rfl rfl hd
    · exact triv rfl rfl rfl hd
  | events evs =>
    have hd := hdv (by simp [stepKinds]) (by simp [stepKinds]) (by simp [stepKinds])
    simp only [step] at hs; (repeat' split at hs) <;> cases hs
    · exact triv (by simp) (by simp) (by simp) hd
    · exact triv rfl rfl rfl hd
  | clock t =>
    have hd := hdv (by simp [stepKinds]) (by simp [stepKinds]) (by simp [stepKinds])
    simp only [step] at hs; (repeat' split at hs) <;> cases hs
    exact triv rfl rfl rfl hd
  | signal n =>
    have hd := hdv (by simp [stepKinds]) (by simp [stepKinds]) (by simp [stepKinds])
    simp only [step] at hs; (repeat' split at hs) <;> cases hs <;> exact triv rfl rfl rfl hd
  | wdone n =>
    have hd := hdv (by simp [stepKinds]) (by simp [stepKinds]) (by simp [stepKinds])
    simp only [step] at hs; (repeat' split at hs) <;> cases hs
    exact triv (by simp) (by simp) (by simp) hd


/-! ## Steps of the coroutine itself -/

theorem chanSelect_own {c i : Nat} {s : S} (cs : List Nat) (dl : Int) (b : Bool) (h0 : dv i s = []) (hfr : ∀ k, s.nchan ≤ k → s.chan k = none) (hf : (chanSelect s i cs dl b).fault = false) :
    (((chanSelect s i cs dl b).co i).pc = .blk .sel → (c ∈ cs → c < (chanSelect s i cs dl b).nchan) ∧ dv i (chanSelect s i cs dl b) = [] ∧ ((chanSelect s i cs dl b).co i).retIdx = -1) ∧
    (∀ x v, ((chanSelect s i cs dl b).co i).pc = .selGot x c v → c < (chanSelect s i cs dl b).nchan ∧
      (v = OK → ∃ m, dv i (chanSelect s i cs dl b) = [.take c i m] ∧ ∀ p, slot (chanSelect s i cs dl b) c = some p → p.2 = m) ∧ (v ≠ OK → dv i (chanSelect s i cs dl b) = [])) := by
  have hlt : ∀ {k ch}, s.chan k = some ch → k < s.nchan := by
    intro k ch h
    rcases Nat.lt_or_ge k s.nchan with h1 | h1
    · exact h1
    · rw [hfr k h1] at h; cases h
  revert hf
  unfold chanSelect
  split
  · intro h; simp at h
  rename_i hany
  split
  · intro _; exact ⟨fun h => (by rw [pc_retv] at h; cases h), fun _ _ h => (by rw [pc_retv] at h; cases h)⟩
  split
  · rename_i k c' hsc
    split
    · intro h; simp at h
    rename_i ch hch
    split
    · intro _
      refine ⟨fun h => (by rw [pc_setPc] at h; cases h), fun x v h => ?_⟩
      rw [pc_setPc] at h; cases h
      exact ⟨hlt hch, fun h => absurd h (by decide), fun _ => h0⟩
    split
    · rename_i m snd t hr
      intro hf
      dsimp only at hf ⊢
      refine ⟨fun h => (by rw [pc_resumeOpt, pc_setPc] at h; cases h), fun x v h => ?_⟩
      rw [pc_resumeOpt, pc_setPc] at h; cases h
      refine ⟨by simp [recvNow_nchan hr]; exact hlt hch, fun _ => ⟨m, ?_, ?_⟩, fun h => absurd rfl h⟩
      · have hl : t.log = .take c i m :: s.log := by
          simp at hf
          unfold recvNow at hr
          (repeat' split at hr) <;> cases hr <;> first | rfl | (simp at hf)
        rw [dv_append (s := s) (es := [.take c i m]) (by simpa using hl) (by simp [isCallOf]), h0]; simp [delivTo]
      · intro p hp
        simp [slot] at hp
        obtain ⟨_, _, hp⟩ := hp; rw [← hp]
    · intro h; simp at h
  split
  · intro _; exact ⟨fun h => (by rw [pc_retv] at h; cases h), fun _ _ h => (by rw [pc_retv] at h; cases h)⟩
  · intro _
    refine ⟨fun _ => ⟨fun hm => ?_, ?_, ?_⟩, fun _ _ h => by rw [pc_copause] at h; cases h⟩
    · have : (s.chan c).isNone = false := by
        simp only [List.any_eq_true, not_exists, not_and] at hany
        have := hany c hm; revert this; cases s.chan c <;> simp
      cases hch : s.chan c with
      | none => rw [hch] at this; cases this
      | some ch => simp; exact hlt hch
    · rw [dv_same (s := s) (by simp), h0]
    · rw [copause_co, if_pos rfl]; split <;> simp [upd_co]

theorem callSt_dv (s : S) (i : Nat) (c : Call) : dv i (callSt s i c) = [] := by
  show (since i (.call i c :: s.log)).filter _ = []
  simp [since, isCallOf]

theorem CaseInv.call {ok} {c i : Nat} {s s' : S} {cl : Call} (r : Reach ok s) (hok : ok s (.call cl)) (hs : step s (.call cl) = some s') (hc : s.sco.cur = some i) (hf : s'.fault = false) : CaseInv c i s' := by
  obtain ⟨hu, hne, e⟩ := step_call_of hs hc
  have hn := (cur_le (reach_scoWF r) hc).2
  have ft := (reach_invN (r.step _ hok hs) hf i).ft
  have hcall : (s'.co i).call = cl := by rw [e, doCall_call cl (by exact hn)]; simp [callSt, upd_co]
  have key : ∀ cs, selCs cl = some cs → ∃ dl b, s' = chanSelect (callSt s i cl) i cs dl b := by
    intro cs h
    cases cl <;> simp [selCs] at h <;> subst h <;> exact ⟨_, _, e⟩
  have own := fun cs dl b (e : s' = chanSelect (callSt s i cl) i cs dl b) => (by
    rw [e] at hf ⊢
    exact chanSelect_own (c := c) (i := i) (s := callSt s i cl) cs dl b (callSt_dv ..) (reach_invC r).fresh hf :
      ((s'.co i).pc = .blk .sel → (c ∈ cs → c < s'.nchan) ∧ dv i s' = [] ∧ (s'.co i).retIdx = -1) ∧
      (∀ x v, (s'.co i).pc = .selGot x c v → c < s'.nchan ∧ (v = OK → ∃ m, dv i s' = [.take c i m] ∧ ∀ p, slot s' c = some p → p.2 = m) ∧ (v ≠ OK → dv i s' = [])))
  refine ⟨?_, ?_, ?_, ?_⟩
  · intro hp cs dl hcl hm
    obtain ⟨dl', b, e'⟩ := key cs (by rw [← hcall, hcl]; rfl)
    obtain ⟨h1, h2, h3⟩ := (own cs dl' b e').1 hp
    exact ⟨h1 hm, fun _ => h2, fun x hx => by rw [h3] at hx; omega⟩
  · intro x v hp
    unfold fits at ft; rw [hp] at ft
    obtain ⟨cs, h1, _⟩ := ft
    obtain ⟨dl', b, e'⟩ := key cs (by rw [← hcall]; exact h1)
    exact (own cs dl' b e').2 x v hp
  · intro v cs hp hcs hv
    obtain ⟨dl', b, e'⟩ := key cs (by rw [← hcall]; exact hcs)
    rw [e'] at hp hf
    rcases chanSelect_pc _ _ _ _ _ hf with ⟨_, h, _⟩ | ⟨_, _, _, h, _⟩ | h | ⟨_, h⟩ <;> rw [h] at hp <;> cases hp <;> exact absurd hv (by decide)
  · intro hp
    unfold fits at ft; rw [hp] at ft
    rw [hcall] at ft; exact absurd ft hne

theorem tauCo_sel {s s' : S} {i : Nat} (h : tauCo s i = some s') : (s'.co i).pc ≠ .blk .sel := by
  intro hp
  unfold tauCo at h
  split at h
  case h_1 => cases h
  case h_2 => cases h
  case h_3 => cases h
  case h_4 => cases h; unfold doRet at hp; split at hp <;> simp [setPc_co, upd_co] at hp
  case h_5 => (repeat' split at h) <;> cases h <;> simp [setPc_co, coyield_co] at hp
  case h_6 => cases h; simp [coyield_co] at hp
  case h_7 a hpc =>
    cases h
    cases a with
    | ret v => simp [doAft, retv_co] at hp
    | condEnq =>
      simp only [doAft] at hp; split at hp
      · simp [cvEnq, pc_copause] at hp
      · simp [hpc] at hp
    | genRel =>
      simp only [doAft] at hp; split at hp
      · simp [setPc_co] at hp
      · simp [hpc] at hp
    | exitTail => simp only [doAft] at hp; split at hp <;> simp [setPc_co, yfsr, coyield_co] at hp
    | fin a => simp [doAft, doFin, setPc_co] at hp
  case h_8 => cases h; simp [retv_co] at hp
  case h_9 b _ => cases h; cases b <;> simp only [afterBlk] at hp <;> (repeat' split at hp) <;> simp [retv_co, setPc_co] at hp
  case h_10 hpc =>
    (split at h) <;> cases h
    · unfold doCancel at hp; dsimp only at hp; (repeat' split at hp) <;> simp [retv_co, setPc_co, pc_copause] at hp
    · simp [hpc] at hp
  case h_11 hpc =>
    (split at h) <;> cases h
    · unfold doRelock at hp; (repeat' split at hp) <;> simp [retv_co, setPc_co, finishLock, pc_copause] at hp
    · simp [hpc] at hp
  case h_12 => cases h; simp [retv_co] at hp
  case h_13 a hpc =>
    cases h
    have := (doExit_pc hpc).1
    rw [hp] at this; cases this

/-- how a select comes to its end -/
theorem tauCo_toRet {s s' : S} {i : Nat} (h : tauCo s i = some s') (ft : fits (s.co i)) {v : Int} {cs : List Nat} (hp : (s'.co i).pc = .ret v) (hcs : selCs (s'.co i).call = some cs) (hv : 0 ≤ v) :
    (∃ x c w, (s.co i).pc = .selGot x c w ∧ v = x ∧ s' = retv { s with chan := fun j => if j = c then (s.chan c).map (fun ch => { ch with lok := decide (w = OK) }) else s.chan j, fault := s.fault || (s.chan c).isNone } i x) ∨
    ((s.co i).pc = .blk .sel ∧ (s.co i).retIdx = v ∧ s'.chan = s.chan ∧ s'.log = s.log ∧ s'.nchan = s.nchan) := by
  have hcall : (s'.co i).call = (s.co i).call := by
    rcases tauCo_stat (j := i) h with e | ⟨_, ⟨w, hpc, _⟩ | ⟨_, _, _, _, e⟩ | ⟨_, _, _, e⟩⟩
    · exact stat_call e
    · exfalso; unfold tauCo at h; rw [hpc] at h; cases h; unfold doRet at hp; split at hp <;> simp [setPc_co, upd_co] at hp
    · have e2 := stat_call e; exact e2
    · have e2 := stat_call e; exact e2
  rw [hcall] at hcs
  unfold tauCo at h
  split at h
  case h_1 => cases h
  case h_2 => cases h
  case h_3 => cases h
  case h_4 => cases h; unfold doRet at hp; split at hp <;> simp [setPc_co, upd_co] at hp
  case h_5 => (repeat' split at h) <;> cases h <;> simp [setPc_co, coyield_co] at hp
  case h_6 => cases h; simp [coyield_co] at hp
  case h_7 a hpc =>
    cases h
    cases a with
    | ret w =>
      unfold fits at ft; rw [hpc] at ft
      have := ft.1
      revert this hcs; cases (s.co i).call <;> simp [yields, selCs]
    | condEnq =>
      simp only [doAft] at hp; split at hp
      · simp [cvEnq, pc_copause] at hp
      · simp [hpc] at hp
    | genRel =>
      simp only [doAft] at hp; split at hp
      · simp [setPc_co] at hp
      · simp [hpc] at hp
    | exitTail => simp only [doAft] at hp; split at hp <;> simp [setPc_co, yfsr, coyield_co] at hp
    | fin a => simp [doAft, doFin, setPc_co] at hp
  case h_8 x c w hpc =>
    cases h
    rw [pc_retv] at hp; cases hp
    exact .inl ⟨_, _, _, hpc, rfl, rfl⟩
  case h_9 b hpc =>
    cases h
    unfold fits at ft; rw [hpc] at ft
    cases b with
    | sel =>
      refine .inr ⟨hpc, ?_, ?_, ?_, ?_⟩
      · simp only [afterBlk, preBlk, pc_retv] at hp
        have hp := Pc.ret.inj hp
        have key : ∀ {k a w : Int}, (k = OK ∨ k = TIMEDOUT ∨ k = CANCELED) → (if k = OK then a else k) = w → 0 ≤ w → a = w := by
          intro k a w h hw hv
          rcases h with rfl | rfl | rfl
          · exact hw
          · rw [if_neg (by decide)] at hw; rw [← hw] at hv; exact absurd hv (by decide)
          · rw [if_neg (by decide)] at hw; rw [← hw] at hv; exact absurd hv (by decide)
        have e1 := key (timed_dlCode _ _ _) hp hv
        rw [← e1]; simp; exact (unpause_keep s i).2.2.2.2.2.1.symm
      · simp [afterBlk, preBlk]
      · simp [afterBlk, preBlk]
      · simp [afterBlk, preBlk]
    | relock =>
      obtain ⟨_, _, _, e, _⟩ := ft; rw [e] at hcs; cases hcs
    | _ =>
      obtain ⟨dl, e⟩ := ft
      exfalso
      revert e hcs; cases (s.co i).call <;> simp [BlkC, selCs] <;> (try split) <;> simp_all
  case h_10 hpc =>
    unfold fits at ft; rw [hpc] at ft; obtain ⟨t, dl, e⟩ := ft
    rw [e] at hcs; cases hcs
  case h_11 hpc =>
    unfold fits at ft; rw [hpc] at ft; obtain ⟨_, _, _, e, _⟩ := ft
    rw [e] at hcs; cases hcs
  case h_12 hpc =>
    cases h
    unfold fits at ft; rw [hpc] at ft
    simp [ft, selCs] at hcs
  case h_13 a hpc =>
    cases h
    have := (doExit_pc hpc).1
    rw [hp] at this; cases this


theorem tauCo_user {s s' : S} {i : Nat} (h : tauCo s i = some s') (hp : (s'.co i).pc = .user) : ∃ w, (s.co i).pc = .ret w := by
  unfold tauCo at h
  split at h
  case h_1 => cases h
  case h_2 => cases h
  case h_3 => cases h
  case h_4 w hpc => exact ⟨w, hpc⟩
  case h_5 => (repeat' split at h) <;> cases h <;> simp [setPc_co, coyield_co] at hp
  case h_6 => cases h; simp [coyield_co] at hp
  case h_7 a hpc =>
    cases h
    cases a with
    | ret v => simp [doAft, retv_co] at hp
    | condEnq =>
      simp only [doAft] at hp; split at hp
      · simp [cvEnq, pc_copause] at hp
      · simp [hpc] at hp
    | genRel =>
      simp only [doAft] at hp; split at hp
      · simp [setPc_co] at hp
      · simp [hpc] at hp
    | exitTail => simp only [doAft] at hp; split at hp <;> simp [setPc_co, yfsr, coyield_co] at hp
    | fin a => simp [doAft, doFin, setPc_co] at hp
  case h_8 => cases h; simp [retv_co] at hp
  case h_9 b _ => cases h; cases b <;> simp only [afterBlk] at hp <;> (repeat' split at hp) <;> simp [retv_co, setPc_co] at hp
  case h_10 hpc =>
    (split at h) <;> cases h
    · unfold doCancel at hp; dsimp only at hp; (repeat' split at hp) <;> simp [retv_co, setPc_co, pc_copause] at hp
    · simp [hpc] at hp
  case h_11 hpc =>
    (split at h) <;> cases h
    · unfold doRelock at hp; (repeat' split at hp) <;> simp [retv_co, setPc_co, finishLock, pc_copause] at hp
    · simp [hpc] at hp
  case h_12 => cases h; simp [retv_co] at hp
  case h_13 a hpc =>
    cases h
    have := (doExit_pc hpc).1
    rw [hp] at this; cases this

theorem ret_id {ok} {s : S} (r : Reach ok s) {i : Nat} {cl : Call} {v : Int} {m : Msg} (h : .ret i cl v m ∈ s.log) : i ≤ s.sco.nextId := by
  induction r with
  | init a e => simp [init] at h
  | @step s s' r a hok hs ih =>
    obtain ⟨es, he⟩ := step_suffix hs
    have hx : s.sco.nextId ≤ s'.sco.nextId := step_nextId (reach_scoWF r) hs
    rw [he] at h
    rcases List.mem_append.mp h with h | h
    · have := cur_le (reach_scoWF r) (step_noret hs he h).2; omega
    · have := ih h; omega

theorem CaseInv.tau {ok} {c i : Nat} {s s' : S} (h : CaseInv c i s) (r : Reach ok s) (hs : tauCo s i = some s') (hn : i ≤ s.sco.nextId) (hf : s.fault = false) : CaseInv c i s' := by
  have ft := (reach_invN r hf i).ft
  refine ⟨fun hp => absurd hp (tauCo_sel hs), fun x v hp => ?_, ?_, ?_⟩
  · have h0 := tauCo_found hs hp
    unfold tauCo at hs; rw [h0] at hs; cases hs
    rw [pc_retv] at hp; cases hp
  · intro v cs hp hcs hv hg
    have hcs0 := hcs
    have hcall : selCs (s.co i).call = some cs := by
      rcases tauCo_stat (j := i) hs with e | ⟨_, ⟨w, hpc, _⟩ | ⟨_, _, _, _, e⟩ | ⟨_, _, _, e⟩⟩
      · rw [← stat_call e]; exact hcs
      · exfalso; unfold tauCo at hs; rw [hpc] at hs; cases hs; unfold doRet at hp; split at hp <;> simp [setPc_co, upd_co] at hp
      · have e2 := stat_call e; dsimp only at e2
        rw [← e2]; exact hcs
      · have e2 := stat_call e; dsimp only at e2
        rw [← e2]; exact hcs
    rcases tauCo_toRet hs ft hp hcs hv with ⟨x, c', w, h1, rfl, e⟩ | ⟨h1, h2, h3, h4, h5⟩
    · obtain ⟨cs', g1, g2⟩ := reach_found r hf i hn x c' w h1
      rw [hcall] at g1; cases g1
      rw [Int.toNat_natCast, g2] at hg; cases hg
      obtain ⟨e1, e2, e3⟩ := h.g x w h1
      rw [e]
      refine ⟨e1, fun p hp => ?_⟩
      have hd : dv i (retv { s with chan := fun j => if j = c then (s.chan c).map (fun ch => { ch with lok := decide (w = OK) }) else s.chan j, fault := s.fault || (s.chan c).isNone } i x) = dv i s := rfl
      rw [hd]
      unfold slot at hp
      rw [retv_chan] at hp
      simp only [if_pos, Option.map_map] at hp
      cases hch : s.chan c with
      | none => rw [hch] at hp; cases hp
      | some ch =>
        rw [hch] at hp; cases hp
        by_cases hw : w = OK
        · obtain ⟨m, a1, a2⟩ := e2 hw
          have := a2 (ch.lok, ch.lmsg) (by unfold slot; rw [hch]; rfl)
          left; refine ⟨by simp [hw], .inl ?_⟩
          rw [a1]; simp at this; simp [this]
        · right; exact ⟨by simp [hw], e3 hw⟩
    · unfold fits at ft; rw [h1] at ft
      obtain ⟨cs', dl, g1, g2⟩ := ft
      rw [g1] at hcall; cases hcall
      have hx : (s.co i).retIdx = (v.toNat : Nat) := by rw [h2]; omega
      exact ((h.w h1 cs dl g1 (List.mem_of_getElem? hg)).2.2 v.toNat hx hg).kept (.of h5 (slot_chan h3)) (dv_same h4)
  · intro hp cl v m cs hm hcs hv hg
    have hpc := tauCo_user hs hp
    obtain ⟨w, hpc⟩ := hpc
    unfold tauCo at hs; rw [hpc] at hs; cases hs
    have hcn : (s.co i).call ≠ .none := by
      intro e; unfold fits at ft; rw [hpc, e] at ft; exact ft
    have hnr := pending_noret ((pending_call r).mpr ⟨rfl, hcn⟩)
    unfold doRet at hp hm ⊢
    split at hp
    · simp [setPc_co] at hp
    · rename_i hng
      rw [if_neg hng] at hm ⊢
      have hl : since i (note s (.ret i (s.co i).call w (s.co i).rdat)).log = [.ret i (s.co i).call w (s.co i).rdat] ++ since i s.log := since_append_no (es := [_]) (by simp [isCallOf])
      rw [upd_log, hl] at hm
      rcases List.mem_append.mp hm with hm | hm
      · simp at hm
        obtain ⟨rfl, rfl, rfl⟩ := hm
        refine (h.t v cs hpc hcs hv hg).kept (.of rfl rfl) ?_
        rw [dv_append (es := [.ret i (s.co i).call v (s.co i).rdat]) rfl (by simp [isCallOf])]; rfl
      · exact absurd hm (hnr _ _ _)

theorem reach_case {ok} {s : S} (r : Reach ok s) {c i : Nat} (hf : s.fault = false) (ho : Only c i s.log) (hi : i ≤ s.sco.nextId) : CaseInv c i s := by
  induction r with
  | init a e =>
    have hpc : ((init a e).co i).pc = .user := by unfold init; dsimp only; split <;> rfl
    refine ⟨?_, ?_, ?_, ?_⟩
    · rw [hpc]; intro h; cases h
    · rw [hpc]; intro _ _ h; cases h
    · rw [hpc]; intro _ _ h; cases h
    · intro _ cl v m cs hm; simp [init, since, isCallOf] at hm
  | @step s s' r a hok hs ih =>
    have hf0 := step_nofault hs
    have ho0 : Only c i s.log := by obtain ⟨es, h⟩ := step_suffix hs; rw [h] at ho; exact ho.mono
    by_cases hn : (a = .call .start ∨ a = .call .genStart) ∧ i = s.sco.nextId + 1
    · obtain ⟨j, g, hj, h2, _⟩ := start_new hn.1 hs
      rw [← hn.2] at h2
      have hpc : (s'.co i).pc = .user := by rw [h2]; unfold newCo; split <;> rfl
      refine ⟨?_, ?_, ?_, ?_⟩
      · rw [hpc]; intro h; cases h
      · rw [hpc]; intro _ _ h; cases h
      · rw [hpc]; intro _ _ h; cases h
      · intro _ cl v m cs hm
        obtain ⟨es, he⟩ := step_suffix hs
        have hm : .ret i cl v m ∈ s'.log := (List.takeWhile_prefix _).subset hm
        rw [he] at hm
        rcases List.mem_append.mp hm with hm | hm
        · have := (step_noret hs he hm).1
          rcases hn.1 with h | h <;> rw [h] at this <;> cases this
        · have := ret_id r hm; omega
    have hi0 := old_id r hs hi hn
    have ih := ih hf0 ho0 hi0
    have hL := reach_invL r
    have quiet : s'.co i = s.co i → s'.chan = s.chan → s'.nchan = s.nchan → dv i s' = dv i s → a ≠ .tau → (∀ c, a ≠ .call c) → CaseInv c i s' := fun h1 h2 h3 h4 h5 h6 =>
      ih.deal (k := 0) hL (by rw [h1]) (.keep (by rw [h1]) (.of h3 (slot_chan h2)) h4) (fun _ _ _ hm => since_ret hs (.inl h5) (fun c e => absurd e (h6 c)) hm)
    have hdv : Kind.call ∉ stepKinds s a → Kind.take ∉ stepKinds s a → Kind.bcastTo ∉ stepKinds s a → dv i s' = dv i s := dv_adds (step_adds hs)
    by_cases hc : s.sco.cur = some i
    · cases a with
      | call cl => exact CaseInv.call r hok hs hc hf
      | tau =>
        simp only [step, hc] at hs; split at hs
        · cases hs
        exact ih.tau r hs hi0 hf0
      | finish =>
        simp only [step, hc] at hs; (repeat' split at hs) <;> cases hs
        refine ⟨?_, ?_, ?_, ?_⟩ <;> rw [pc_setPc] <;> intros <;> contradiction
      | submit b =>
        have hd := hdv (by simp [stepKinds]) (by simp [stepKinds]) (by simp [stepKinds])
        have hs0 := hs
        simp only [step, hc] at hs; (repeat' split at hs) <;> cases hs
        · refine ⟨fun h => ?_, fun _ _ h => ?_, fun _ _ h => ?_, fun h => ?_⟩ <;> (replace h := (pc_setPc _ _ _).symm.trans h) <;> cases h
        · exact quiet rfl rfl rfl hd (by simp) (by simp)
      | events =>
        simp only [step, hc] at hs; split at hs
        · cases hs
        split at hs
        · rename_i h; simp at h
        · cases hs
      | clock =>
        have hd := hdv (by simp [stepKinds]) (by simp [stepKinds]) (by simp [stepKinds])
        have hs0 := hs
        simp only [step] at hs; (repeat' split at hs) <;> cases hs
        exact quiet rfl rfl rfl hd (by simp) (by simp)
      | signal =>
        have hd := hdv (by simp [stepKinds]) (by simp [stepKinds]) (by simp [stepKinds])
        have hs0 := hs
        simp only [step] at hs; (repeat' split at hs) <;> cases hs <;> exact quiet rfl rfl rfl hd (by simp) (by simp)
      | wdone =>
        have hd := hdv (by simp [stepKinds]) (by simp [stepKinds]) (by simp [stepKinds])
        have hs0 := hs
        simp only [step] at hs; (repeat' split at hs) <;> cases hs
        exact quiet (by simp) (by simp) (by simp) hd (by simp) (by simp)
    · have hv := step_view hs hc hi0
      have hr : ∀ cl v m, .ret i cl v m ∈ since i s'.log → .ret i cl v m ∈ since i s.log := fun _ _ _ hm => since_ret hs (.inr hc) (fun _ _ => hc) hm
      by_cases hq : ∃ k, .co i ∈ s.lists (.chanQ k)
      · obtain ⟨k, hk⟩ := hq
        have hp := hL.pl _ _ hk
        simp only [place, Node.owner] at hp
        simp only [view, Prod.mk.injEq] at hv
        refine ⟨?_, ?_, ?_, ?_⟩ <;> rw [hv.1] <;> rcases hp with hp | hp <;> rw [hp.1] <;> intros <;> contradiction
      · obtain ⟨k, hk⟩ := step_deal r hs ho hc hi0 (fun k hk => hq ⟨k, hk⟩)
        exact ih.deal hL hv hk hr

end Neco.Rt
