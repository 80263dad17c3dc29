import Verif.Proof.RtEvid6
/-!
# Evidence in every reachable state
-/
namespace Neco.Rt
open Neco.Err

/-- what is still to be done after yielding -/
def pcAft : Pc → Option Aft
  | .yck _ a | .yld _ a | .go a => some a
  | _ => none

theorem CoE.aft {i : Nat} {s t : S} {a : Aft} (h : CoE i s) (hp : pcAft (s.co i).pc = some a) (o : Out i s t []) (hp' : pcAft (t.co i).pc = some a)
    (hr : (t.co i).rdat = (s.co i).rdat) : CoE i t := by
  have hB := h.base.out o
  cases a with
  | ret v =>
    have h1 : retPc (s.co i).pc = some v := by
      revert hp; generalize (s.co i).pc = p; cases p <;> simp [pcAft] <;> rintro rfl <;> rfl
    have h2 : retPc (t.co i).pc = some v := by
      revert hp'; generalize (t.co i).pc = p; cases p <;> simp [pcAft] <;> rintro rfl <;> rfl
    exact hB.ret h2 ((h.rt v h1).mono o.log (by simp) (by rw [o.clk]; exact Int.le_refl _) o.ca o.gen hr)
  | condEnq =>
    have h1 : condPc (s.co i).pc = true := by
      revert hp; generalize (s.co i).pc = p; cases p <;> simp [pcAft] <;> rintro rfl <;> rfl
    have h2 : condPc (t.co i).pc = true := by
      revert hp'; generalize (t.co i).pc = p; cases p <;> simp [pcAft] <;> rintro rfl <;> rfl
    obtain ⟨q, m, dl, h3, h4, _⟩ := h.cw (.inr h1)
    exact hB.cond h2 (q := q) (m := m) (dl := dl) (by rw [o.ca, h3]) (by rw [sn_ext o.log (by simp)]; exact h4)
  | genRel x y => exact hB.plain (by revert hp'; generalize (t.co i).pc = p; cases p <;> simp [pcAft] <;> rintro rfl <;> rfl)
  | exitTail x y => exact hB.plain (by revert hp'; generalize (t.co i).pc = p; cases p <;> simp [pcAft] <;> rintro rfl <;> rfl)
  | fin x => exact hB.plain (by revert hp'; generalize (t.co i).pc = p; cases p <;> simp [pcAft] <;> rintro rfl <;> rfl)

theorem Out.coyield {i : Nat} {s t : S} {es : List Ev} (h : Out i s t es) {n : Nat} {a : Aft} : Out i s (coyield t i n a) es := by
  have o1 : Out i s (setPc t i (.yck n a)) es := h.pc
  exact o1.eqs

theorem schedAll_mem {s : S} {L K : LName} {q : List Node} {n : Node} (h : n ∈ (schedAll s L q).lists K) : n ∈ s.lists K ∨ K = .resumers := by
  induction q generalizing s with
  | nil => exact .inl h
  | cons x q ih =>
    simp only [schedAll] at h
    rcases ih h with h | h
    · rcases mem_sched.mp h with h | h
      · exact .inl h.1
      · exact .inr h.1
    · exact .inr h

theorem setList_mem_sub {s : S} {L K : LName} {n : Node} (h : n ∈ (setList s L []).lists K) : n ∈ s.lists K := by
  rw [setList_lists] at h; split at h
  · simp at h
  · exact h

theorem chanClose1_out' {i : Nat} {s u : S} {es : List Ev} (o : Out i u s es) (k : Nat) (ch : Chan) (a : Aft) (hq : ∀ n ∈ s.lists (.chanQ k), n.owner ≠ i) :
    Out i u (chanClose1 s i k ch a) es := by
  unfold chanClose1; dsimp only
  have o1 : Out i u (setChan s k { ch with sclosed := true }) es := o.eqs
  split
  · exact o1.pc
  · have o2 := o1.ntr (.closeLoop (c := k) (q := (setChan s k { ch with sclosed := true }).lists (.chanQ k)) (fun h => hq _ h rfl) hq)
    have o3 : Out i u (closeEnd (closeLoop (setChan s k { ch with sclosed := true }) k ((setChan s k { ch with sclosed := true }).lists (.chanQ k))) k) es := o2.eqs
    exact o3.coyield

theorem chanClose1_pcAft (s : S) (i k : Nat) (ch : Chan) (a : Aft) : pcAft ((chanClose1 s i k ch a).co i).pc = some a := by
  unfold chanClose1; dsimp only; split
  · simp [setPc_co, pcAft]
  · simp [yfsr, coyield_co, pcAft]

theorem plainOf {p : Pc} {a : Aft} (h : pcAft p = some a) (h1 : ∀ v, a ≠ .ret v) (h2 : a ≠ .condEnq) : plainPc p = true := by
  cases p <;> simp [pcAft] at h <;> subst h <;> rename_i a <;> cases a <;> simp_all [plainPc]

section
variable {i : Nat} {s : S} (h : CoE i s) (hF : CoF i s) (hcur : s.sco.cur = some i) (hnp : i ∉ s.sco.paused)

include h in
theorem exitNotify_coe (hL : InvL s) (hp : ∃ x, (s.co i).pc = .exitRun x) (a : Bool) : CoE i (exitNotify s i a) := by
  obtain ⟨x, hpx⟩ := hp
  have hown : ∀ L n, L ≠ LName.resumers → L ≠ LName.iolist → n ∈ s.lists L → n.owner ≠ i := by
    intro L n h1 h2 hn e
    have hf := hL.free (i := i) (by rw [hpx]; rfl)
    rcases hf L n hn e with h | h
    · exact h1 h
    · exact h2 h
  unfold exitNotify
  extract_lets t0 qc t1 qj t2 sched
  have o0 : Out i s t0 [.exit i] := ⟨by simp [t0, lg, List.filter_cons, Ev.about], rfl, rfl, fun h => h, fun h => h, fun _ h => h, rfl, rfl⟩
  have l0 : t0.lists = s.lists := rfl
  have n1 : Ntr i t0 t1 := (Ntr.setList (s := t0) (fun h => hown (.cancelQ i) (.co i) (by simp) (by simp) h rfl) (by simp)).trans (.schedAll (fun n hn => hown (.cancelQ i) n (by simp) (by simp) hn))
  have m1 : ∀ L n, L ≠ .resumers → n ∈ t1.lists L → n ∈ s.lists L := by
    intro L n hL hn
    rcases schedAll_mem hn with h | h
    · exact setList_mem_sub h
    · exact absurd h hL
  have n2 : Ntr i t1 t2 := (Ntr.setList (fun h => hown (.joinQ i) (.co i) (by simp) (by simp) (m1 _ _ (by simp) h) rfl) (by simp)).trans (.schedAll (fun n hn => hown (.joinQ i) n (by simp) (by simp) (m1 _ _ (by simp) hn)))
  have m2 : ∀ L n, L ≠ .resumers → n ∈ t2.lists L → n ∈ s.lists L := by
    intro L n hL hn
    rcases schedAll_mem hn with h | h
    · exact m1 _ _ hL (setList_mem_sub h)
    · exact absurd h hL
  have o2 := (o0.ntr n1).ntr n2
  have hpc2 : (t2.co i).pc = .exitRun x := by rw [n2.co, n1.co]; exact hpx
  clear_value t2
  split
  · exact (h.base.out o2.pc).plain (by simp [setPc_co, plainPc])
  · split
    · have o3 : Out i s { t2 with fault := true } [.exit i] := o2.eqs
      exact (h.base.out o3).plain (by show plainPc (t2.co i).pc = true; rw [hpc2]; rfl)
    · split
      · exact (h.base.out o2.pc).plain (by simp [setPc_co, plainPc])
      · rename_i g _ ch _ _
        refine (h.base.out (chanClose1_out' o2 _ _ _ ?_)).plain (plainOf (chanClose1_pcAft _ _ _ _ _) (by simp) (by simp))
        intro n hn; exact hown _ _ (by simp) (by simp) (m2 _ _ (by simp) hn)

include h hF hcur hnp in
/-- a coroutine that enters a queue and pauses -/
theorem CoE.enq {u : S} {L : LName} {dl : Int} {b : Blk} (o : Out i s u []) (hsco : u.sco = s.sco) (hpa : (u.co i).paused = false) (hL : L ≠ .resumers ∧ L ≠ .iolist)
    {w : S} (hw : w.co = u.co ∧ w.lists = (push u L (.co i)).lists ∧ w.log = u.log ∧ w.jobs = u.jobs ∧ w.clock = u.clock ∧ w.sco = u.sco)
    (hr : inQ i w → ¬ reason i w b) (hO : inQ i w → sn i w = sn i s → Own i w b) : CoE i (copause w i dl b) := by
  obtain ⟨w1, w2, w3, w4, w5, w6⟩ := hw
  have hm : ∀ K, .co i ∈ w.lists K ↔ K = L := by
    intro K; rw [w2, mem_push]; simp
  have hq : inQ i w := ⟨L, hL.1, hL.2, (hm L).mpr rfl⟩
  have hsn : sn i w = sn i s := by
    have h1 : lg i w = lg i s := by rw [lg_of_log w3, o.log]; rfl
    unfold sn; rw [h1]
  have hB := h.base.out o
  refine CoE.pause ⟨?_, ?_, ?_⟩ (by rw [w6, hsco]; exact hcur) (by rw [w6, hsco]; exact hnp) (by rw [w1]; exact hpa) (fun h => hL.1 ((hm _).mp h).symm) (hr hq) (hO hq hsn)
  · rw [w1, w5]; exact hB.dd
  · rw [w1, lg_of_log w3]; exact hB.cc
  · rw [w1, w4]; intro h1 h2; exact ⟨fun h => hL.2 ((hm _).mp h).symm, (hB.st h1 h2).2⟩

include h hF hcur hnp in
theorem doCancel_coe (hp : (s.co i).pc = .cancelTry) {id : Nat} {dl : Int} (hc : (s.co i).call = .cancel id dl) : CoE i (doCancel s i id dl) := by
  have hcm := hF.calm hnp (by rw [hp]; rfl)
  unfold doCancel; split
  · exact h.fin Out.refl.ret (by simp) (v := NOTFOUND) (by simp [retv_co, retPc]) (by nov) (by nov) (by rw [hc]; cok)
  split
  · rename_i hne
    refine h.fin Out.refl.cl.ret (by simp) (v := dlCode s i dl) (by simp [retv_co, retPc]) (fun hv => h.cc (dlCode_canceled.mp hv)) ?_ ?_
    · intro hv
      unfold dlCode at hv
      split at hv
      · simp [CANCELED, TIMEDOUT] at hv
      · split at hv
        · rename_i h1; rcases h1 with h1 | h1
          · exact h.dd h1 (by rw [hc]; simp)
          · exact ⟨dl, by rw [hc]; rfl, h1.2⟩
        · simp [OK, TIMEDOUT] at hv
    · rw [hc]; simp only [CallOk]; intro hv; exact absurd hv hne
  dsimp only
  split
  · -- the target is canceled, which may be the caller
    generalize ht : note (upd (dlClear s i) id (fun k => { k with canceled := true })) (.cancel i id) = t
    have hco : t.co i = { s.co i with canceled := decide (i = id), deadlined := false } := by
      rw [← ht]; show (upd (dlClear s i) id (fun k => { k with canceled := true })).co i = _
      by_cases e : i = id
      · subst e; simp [upd_co, dlClear_co]
      · simp [upd_co, dlClear_co, e]
    have hlg : lg i t = .cancel i id :: lg i s := by rw [← ht]; simp [Ev.about]; rfl
    have hli : t.lists = s.lists := by rw [← ht]; rfl
    have hjb : t.jobs = s.jobs := by rw [← ht]; rfl
    have hclk : t.clock = s.clock := by rw [← ht]; rfl
    clear ht
    have hco' : ((scoResume (setPc t i (.yld 0 (.ret OK))) id).co i) = { s.co i with canceled := decide (i = id), deadlined := false, pc := .yld 0 (.ret OK) } := by
      show (setPc t i (.yld 0 (.ret OK))).co i = _; rw [setPc_co, if_pos rfl, hco]
    have hlg' : lg i (scoResume (setPc t i (.yld 0 (.ret OK))) id) = [.cancel i id] ++ lg i s := hlg
    refine CoB.ret (v := OK) ⟨?_, ?_, ?_⟩ (by rw [hco']; rfl) ⟨by nov, by nov, ?_⟩
    · rw [hco']; simp
    · rw [hco', hlg']; simp
      intro e; subst e; exact ⟨i, .inl ⟨rfl, rfl⟩⟩
    · rw [hco']; show (s.co i).call ≠ .none → _ → Node.co i ∉ t.lists .iolist ∧ i ∉ t.jobs
      rw [hli, hjb]; exact h.st
    · rw [hco', sn_ext hlg' (by simp [isCallOf]), show (({ s.co i with canceled := decide (i = id), deadlined := false, pc := .yld 0 (.ret OK) } : Co).call) = .cancel id dl from hc]
      simp [CallOk]
  · refine h.enq hF hcur hnp Out.refl.cl rfl (by simpa [dlClear_co] using hcm.pa) (L := .cancelQ id) (by simp) ⟨rfl, rfl, rfl, rfl, rfl, rfl⟩ ?_ ?_
    · intro hq hn; exact hn hq
    · intro _ _; unfold Own; have e : ((push (dlClear s i) (.cancelQ id) (.co i)).co i).call = .cancel id dl := by simpa [dlClear_co] using hc
      rw [e]; trivial

include h hF hcur hnp in
theorem doRelock_coe (hp : (s.co i).pc = .relock) {q m : Nat} {dl : Int} (hc : (s.co i).call = .cvWait q m dl) : CoE i (doRelock s i m) := by
  have hcm := hF.calm hnp (by rw [hp]; rfl)
  obtain ⟨q', m', dl', h1, hrel, hsav⟩ := h.cw (.inl hp)
  rw [hc] at h1; cases h1
  replace hsav := hsav hp
  unfold doRelock; split
  · have o1 : Out i s (setMu s m { s.mu m with locked := true }) [] := Out.refl.eqs
    have o2 : Out i s (note (setMu s m { s.mu m with locked := true }) (.grant m i false)) [.grant m i false] := o1.note (by simp [Ev.about])
    refine h.fin o2.ret (by simp [isCallOf]) (v := (s.co i).sav) (by simp [retv_co, retPc]) hsav.1 (fun hv => ⟨dl, by rw [hc]; rfl, hsav.2.1 hv⟩) ?_
    rw [hc]; simp only [CallOk]
    exact ⟨.inr (.now hrel), fun hv => (hsav.2.2 hv).mono⟩
  split
  · have o4 : Out i s (note (dlClear s i) (.kill i false)) [.kill i false] := Out.refl.cl.note (by simp [Ev.about])
    exact (h.base.out o4.pc).plain (by simp [setPc_co, plainPc])
  split
  · have o4 : Out i s (setPc (dlClear s i) i .relock) [] := Out.refl.cl.pc
    have hB := h.base.out o4
    have hpc : ((setPc (dlClear s i) i .relock).co i).pc = .relock := by simp [setPc_co]
    have hca : ((setPc (dlClear s i) i .relock).co i).call = .cvWait q m dl := by rw [o4.ca, hc]
    refine ⟨hB.dd, hB.cc, hB.st, ?_, ?_, ?_, ?_, ?_, ?_⟩
    · rw [hpc]; simp
    · rw [hpc]; simp
    · rw [hpc]; simp [retPc]
    · rw [hpc]; simp
    · intro _
      refine ⟨q, m, dl, hca, by rw [sn_ext o4.log (by simp)]; exact hrel, fun _ => hsav.mono o4.log (by simp) (by rw [o4.clk]; exact Int.le_refl _) ?_⟩
      simp [setPc_co, dlClear_co]
    · rw [hpc]; simp
  · unfold finishLock; dsimp only
    have o1 : Out i s (upd (dlClear s i) i (fun k => { k with rlocked := false })) [] := Out.refl.cl.upd (fun k => by simp)
    refine h.enq hF hcur hnp o1 rfl (by simpa [upd_co, dlClear_co] using hcm.pa) (L := .muQ m) (by simp) ⟨rfl, rfl, rfl, rfl, rfl, rfl⟩ ?_ ?_
    · intro hq hn; exact hn hq
    · intro hq hsn
      unfold Own
      generalize hw : ({ push (upd (dlClear s i) i (fun k => { k with rlocked := false })) (.muQ m) (.co i) with
        nlocked := (push (upd (dlClear s i) i (fun k => { k with rlocked := false })) (.muQ m) (.co i)).nlocked + 1 } : S) = w at *
      have e : (w.co i).call = .cvWait q m dl := by rw [← hw]; simpa [upd_co, dlClear_co] using hc
      rw [e]; dsimp only; rw [hsn]
      refine ⟨hrel, hsav.mono (es := []) ?_ (by simp) ?_ ?_, .inl hq⟩
      · rw [← hw]; exact lg_of_log rfl
      · rw [← hw]; exact Int.le_refl _
      · rw [← hw]; simp [upd_co, dlClear_co]

include h hF hcur hnp in
theorem tauCo_coe (hL : InvL s) {s' : S} (hs : tauCo s i = some s') : CoE i s' := by
  have hflt : (∀ v, retPc (s.co i).pc ≠ some v) → plainPc (s.co i).pc = true → CoE i { s with fault := true } := by
    intro _ hp
    exact (h.base.out (Out.refl.eqs (u := { s with fault := true }))).plain hp
  unfold tauCo at hs
  split at hs
  · cases hs
  · cases hs
  · cases hs
  · -- returning
    rename_i v e
    cases hs
    unfold doRet; split
    · have o4 : Out i s (note s (.kill i false)) [.kill i false] := Out.refl.note (by simp [Ev.about])
      exact (h.base.out o4.pc).plain (by simp [setPc_co, plainPc])
    · refine CoB.plain ⟨?_, ?_, ?_⟩ (by simp [upd_co, plainPc])
      · simp [upd_co]
      · intro hc
        obtain ⟨k, hk⟩ := h.cc (by simpa [upd_co] using hc)
        exact ⟨k, by show _ ∈ List.filter _ (_ :: s.log); rw [List.filter_cons]; split; exact List.mem_cons_of_mem _ hk; exact hk⟩
      · simp [upd_co]
  · rename_i n a e
    split at hs
    · cases hs
      have o4 : Out i s (note s (.kill i true)) [.kill i true] := Out.refl.note (by simp [Ev.about])
      exact (h.base.out o4.pc).plain (by simp [setPc_co, plainPc])
    · split at hs <;> cases hs
      · exact h.aft (a := a) (by rw [e]; rfl) Out.refl.pc (by simp [setPc_co, pcAft]) (by simp [setPc_co])
      · exact h.aft (a := a) (by rw [e]; rfl) Out.refl.coyield (by simp [coyield_co, pcAft]) (by simp [coyield_co])
  · rename_i n a e
    cases hs
    exact h.aft (a := a) (by rw [e]; rfl) Out.refl.coyield (by simp [coyield_co, pcAft]) (by simp [coyield_co])
  · rename_i a e
    cases hs
    cases a with
    | ret v =>
      have hr := h.rt v (by rw [e]; rfl)
      exact h.fin Out.refl.ret (by simp) (v := v) (by simp [doAft, retv_co, retPc]) hr.1 hr.2.1 (by simpa [doAft, retv_co] using hr.2.2)
    | condEnq =>
      obtain ⟨q, m, dl, hc, hrel, _⟩ := h.cw (.inr (by rw [e]; rfl))
      have hcm := hF.calm hnp (by rw [e]; rfl)
      simp only [doAft, hc]
      unfold cvEnq; dsimp only
      refine h.enq hF hcur hnp .refl rfl hcm.pa (L := .cvQ q) (by simp) ⟨rfl, rfl, rfl, rfl, rfl, rfl⟩ ?_ ?_
      · intro hq hn; exact hn hq
      · intro hq hsn
        unfold Own
        rw [show ((({ push s (.cvQ q) (.co i) with ncondwaiters := (push s (.cvQ q) (.co i)).ncondwaiters + 1 } : S).co i).call) = .cvWait q m dl from hc]
        dsimp only; rw [hsn]
        exact ⟨hrel, .inl hq⟩
    | genRel x y =>
      simp only [doAft]; split
      · rename_i g hg
        have n1 : Ntr i s (chanRelease s g) := .eqs (by simp) (by simp) (by simp) (by simp) (by simp) (by simp)
        refine CoB.plain ⟨?_, ?_, ?_⟩ (by simp [setPc_co, plainPc])
        · simp [setPc_co, upd_co]; exact h.dd
        · intro hc
          obtain ⟨k, hk⟩ := h.cc (by simpa [setPc_co, upd_co] using hc)
          exact ⟨k, by rw [← n1.log] at hk; exact hk⟩
        · simp [setPc_co, upd_co]; exact h.st
      · exact hflt (by rw [e]; simp [retPc]) (by rw [e]; rfl)
    | exitTail x y =>
      simp only [doAft]; split
      · exact (h.base.out Out.refl.coyield).plain (by simp [yfsr, coyield_co, plainPc])
      · exact (h.base.out Out.refl.pc).plain (by simp [setPc_co, plainPc])
    | fin x =>
      simp only [doAft, doFin]
      have o1 : Out i s { Rt.rm s (.co i) with pool := (Rt.rm s (.co i)).pool ++ [(s.co i, 0)] } [] := (Out.refl.rm (n := .co i)).eqs
      have o2 := o1.pc (p := .dead)
      have o3 : Out i s { setPc { Rt.rm s (.co i) with pool := (Rt.rm s (.co i)).pool ++ [(s.co i, 0)] } i .dead with
        sco := if x = true then (setPc { Rt.rm s (.co i) with pool := (Rt.rm s (.co i)).pool ++ [(s.co i, 0)] } i .dead).sco.exit
          else (setPc { Rt.rm s (.co i) with pool := (Rt.rm s (.co i)).pool ++ [(s.co i, 0)] } i .dead).sco.finish } [] := o2.eqs
      exact (h.base.out o3).plain (by simp [setPc_co, plainPc])
  · -- select got a channel
    rename_i k c v e
    cases hs
    obtain ⟨⟨cs, h1, h2⟩, h3⟩ := h.sg k c v e
    have o1 : Out i s { s with chan := fun j => if j = c then (s.chan c).map (fun ch => { ch with lok := decide (v = OK) }) else s.chan j, fault := s.fault || (s.chan c).isNone } [] := Out.refl.eqs
    refine h.fin o1.ret (by simp) (v := k) (by simp [retv_co, retPc]) (by simp [CANCELED]) (by simp [TIMEDOUT]) ?_
    revert h1; cases hcl : (s.co i).call <;> simp [selCs] <;> rintro rfl
    · simp only [CallOk]; intro _
      refine ⟨c, by simpa using h2, ?_⟩
      rcases h3 with h3 | ⟨m, h3⟩
      · exact .inl h3
      · exact .inr ⟨m, .inl h3⟩
    · simp only [CallOk]; intro _
      exact ⟨c, by simpa using h2, h3⟩
  · rename_i b e
    cases hs
    exact afterBlk_coe h hF hnp e
  · rename_i e
    split at hs
    · rename_i id dl hcl
      cases hs
      exact doCancel_coe h hF hcur hnp e hcl
    · cases hs; exact hflt (by rw [e]; simp [retPc]) (by rw [e]; rfl)
  · rename_i e
    split at hs
    · rename_i hcl
      cases hs; exact doRelock_coe h hF hcur hnp e hcl
    · rename_i hx
      obtain ⟨q, m, dl, hc, _⟩ := h.cw (.inl e)
      exact absurd hc (hx q m dl)
  · rename_i e
    cases hs
    obtain ⟨h1, _, _, _, _, h6⟩ := h.ww e
    have o1 : Out i s { s with niowaiters := s.niowaiters - 1 } [] := Out.refl.eqs
    refine h.fin o1.ret (by simp) (v := OK) (by simp [retv_co, retPc]) (by nov) (by nov) ?_
    rw [h1]; simp only [CallOk]; intro _; exact h6 hnp
  · rename_i a e
    cases hs
    unfold doExit; split
    · split
      · rename_i x q hq
        have o1 := Out.refl.upd (s := s) (t := s) (i := i) (f := fun k => { k with cleanup := q }) (fun k => by simp)
        have o2 : Out i s (note (upd s i (fun k => { k with cleanup := q })) (.clean i x)) [.clean i x] := o1.note (by simp [Ev.about])
        exact (h.base.out o2).plain (by simp [upd_co, e, plainPc])
      · exact exitNotify_coe h hL ⟨a, e⟩ a
    · exact exitNotify_coe h hL ⟨a, e⟩ a

end

/-! ## Steps of the environment -/

/-- what a step of the environment does to any coroutine, running or not -/
theorem env_mvs {s s' : S} {a : Act} (hs : step s a = some s') (ha : (∃ t, a = .clock t) ∨ (∃ n, a = .signal n) ∨ ∃ k, a = .wdone k) (j : Nat) : Mvs j s s' := by
  unfold step at hs
  split at hs
  · cases hs
  rcases ha with ⟨t, rfl⟩ | ⟨n, rfl⟩ | ⟨i, rfl⟩
  · simp only at hs; split at hs <;> cases hs
    rename_i h
    exact .same rfl (fun _ _ _ => Iff.rfl) Iff.rfl Iff.rfl (fun _ _ => Iff.rfl) rfl rfl h
  · simp only at hs; (repeat' split at hs) <;> cases hs <;> exact .trans (note_mvs s (e := .sig n) rfl) (.eqs rfl rfl rfl rfl rfl rfl rfl rfl)
  · simp only at hs; split at hs <;> cases hs
    rename_i hi
    by_cases e : j = i
    · subst e
      refine .one (.wdone hi rfl ?_ Iff.rfl Iff.rfl (fun _ _ => Iff.rfl) ?_ (by simp [lg, push, Ev.about, setList, rm, List.filter_append, filter_leave_self]) (Int.le_refl _))
      · intro n K ho
        rw [mem_push]
        constructor
        · rintro (h | h)
          · exact .inl h
          · exact .inr h.symm
        · rintro (h | h)
          · exact .inl h
          · exact .inr h.symm
      · have : 0 < s.jobs.count j := List.count_pos_iff.mpr hi
        simp [push, setList, rm, List.count_erase_self]; omega
    · refine .same rfl (fun n K ho => ?_) Iff.rfl Iff.rfl (fun _ _ => Iff.rfl) (by simp [push, setList, rm, List.count_erase_of_ne e]) (by simp only [lg, push, setList, rm, List.filter_cons, Ev.about, List.filter_append, filter_leave_nil (s := s) (i := i) (p := Ev.about j) (fun c => by simp [Ev.about, Ne.symm e])]; simp [Ne.symm e]) (Int.le_refl _)
      rw [mem_push]; simp [owner_ne ho e]

/-! ## Every reachable state -/

theorem newCo_canceled {s : S} (h : ∀ p, s.pool.head? = some p → p.1.canceled = false) (i : Nat) (g : Option Nat) : (newCo s i g).canceled = false := by
  unfold newCo; split
  · rfl
  · rename_i c x q e
    exact h (c, x) (by rw [e]; rfl)

/-- a call made with no wake-up left over -/
theorem CoE.call {s s' : S} {c : Call} {j : Nat} (hF : InvF s) (hL : InvL s) (hC : InvC s) (hw : Sco.WF s.sco) (hj : s.sco.cur = some j) (hcl : NoStale s j)
    (hs : Rt.step s (.call c) = some s') : CoE j s' := by
  have hft := step_nofault hs
  have hnp := WF.cur_not_paused hw hj
  have hFj := hF.cf j
  have hle := cur_le hw hj
  obtain ⟨c1, c2, c3, c4, c5⟩ := hcl
  unfold Rt.step at hs
  split at hs
  · cases hs
  simp only [hj] at hs
  split at hs <;> cases hs
  rename_i hpc
  have hcm := hFj.calm hnp (by simp [hpc.1, Pc.isBlk])
  have hfr := hL.free (i := j) (by rw [hpc.1]; rfl)
  refine doCall_coe (s := upd (note s (.call j c)) j (fun k => { k with call := c })) ⟨by simp [upd_co], hpc.2, ?_, by simpa [upd_co] using c4, ?_, c3, ?_, hj, hnp, by simpa [upd_co] using hcm.pa, by simp [upd_co, hpc.1]⟩ ?_ ?_ hft hle.2 (Int.le_refl _)
  · show since j (List.filter _ (.call j c :: s.log)) = []
    simp [List.filter_cons, Ev.about, since, isCallOf]
  · intro hc
    obtain ⟨k, hk⟩ := c5 (by simpa [upd_co] using hc)
    refine ⟨k, ?_⟩
    show _ ∈ List.filter _ (_ :: s.log)
    exact List.mem_filter.mpr ⟨List.mem_cons_of_mem _ hk, by simp [Ev.about]⟩
  · intro L n hn e
    have hpl := hL.pl L n hn
    have hne : n = .co j := by
      rcases hfr L n hn e with h1 | h1 <;> subst h1 <;> cases n <;> simp [place] at hpl <;> simp_all [Node.owner]
    subst hne
    rcases hfr L _ hn e with h1 | h1 <;> subst h1
    · exact c1 hn
    · exact c2 hn
  · exact (hL.note _).updFree hfr _
  · exact fun k => (hC.ok hft k).mono rfl (List.Sublist.refl _) (fun n _ => by rw [upd_co]; split <;> simp_all)

/-- any other step of the execution -/
theorem CoE.step1 {s s' : S} {a : Act} {j : Nat} (h : CoE j s) (hF : InvF s) (hL : InvL s) (hC : InvC s) (hw : Sco.WF s.sco)
    (hne : ∀ c, a = .call c → s.sco.cur ≠ some j) (hid : a = .call .start ∨ a = .call .genStart → j ≠ s.sco.nextId + 1)
    (hs : Rt.step s a = some s') : CoE j s' := by
  by_cases he : (∃ t, a = .clock t) ∨ (∃ n, a = .signal n) ∨ ∃ k, a = .wdone k
  · exact h.mvs (hL.coL j) (hF.cf j) (env_mvs hs he j)
  by_cases hj : s.sco.cur = some j
  · have hnp := WF.cur_not_paused hw hj
    have hFj := hF.cf j
    have hle := cur_le hw hj
    unfold Rt.step at hs
    split at hs
    · cases hs
    cases a with
    | call c =>
      exact absurd hj (hne c rfl)
    | finish =>
      simp only [hj] at hs
      split at hs <;> cases hs
      exact (h.base.out Out.refl.pc).plain (by simp [setPc_co, plainPc])
    | tau => simp only [hj] at hs; exact tauCo_coe h hFj hj hnp hL hs
    | submit ok =>
      simp only [hj] at hs
      split at hs
      · rename_i hpc
        have hcm := hFj.calm hnp (by simp [hpc, Pc.isBlk])
        obtain ⟨w1, w2, w3, w4⟩ := h.wt hpc
        split at hs <;> cases hs
        · generalize ht : setPc { s with jobs := j :: s.jobs } j .workWait = t
          have o : t.co j = { s.co j with pc := .workWait } := by rw [← ht]; simp [setPc_co]
          have hlg : lg j t = lg j s := by rw [← ht]; rfl
          have hli : t.lists = s.lists := by rw [← ht]; rfl
          have hjb : t.jobs = j :: s.jobs := by rw [← ht]; rfl
          have hcl : t.clock = s.clock := by rw [← ht]; rfl
          have hpa : j ∈ t.sco.pause.paused := by
            have : t.sco.cur = some j := by rw [← ht]; exact hj
            rw [pause_paused _ this]; simp
          refine ⟨?_, ?_, ?_, ?_, ?_, ?_, ?_, ?_, ?_⟩ <;> dsimp only <;> rw [o] <;> dsimp only
          · rw [hcl]; exact h.dd
          · intro hc; have := h.cc hc; rwa [← hlg] at this
          · intro _ h2; exact absurd w1 h2
          · simp
          · intro _; rw [hli, hjb]
            refine ⟨w1, w4, by rw [List.count_cons_self, List.count_eq_zero_of_not_mem w3]; exact Nat.le_refl _, fun h => absurd h w2, fun _ => .inl (by simp), fun h => absurd hpa h⟩
          · simp [retPc]
          · simp
          · simp [condPc]
          · simp
        · refine ⟨h.dd, h.cc, h.st, h.wt, ?_, ?_, ?_, ?_, ?_⟩ <;> dsimp only <;> rw [hpc]
          · simp
          · simp [retPc]
          · simp
          · simp [condPc]
          · simp
      · cases hs
    | events evs =>
      simp only at hs
      split at hs
      · rename_i h1; rw [hj] at h1; simp at h1
      · cases hs
    | clock t => exact absurd (.inl ⟨t, rfl⟩) he
    | signal n => exact absurd (.inr (.inl ⟨n, rfl⟩)) he
    | wdone k => exact absurd (.inr (.inr ⟨k, rfl⟩)) he
  · exact h.mvs (hL.coL j) (hF.cf j) (step_other hL hC hs hj hid (hF.cf j).evU)

theorem CoE.step {s s' : S} {a : Act} (h : ∀ j, CoE j s) (hF : InvF s) (hL : InvL s) (hC : InvC s) (hw : Sco.WF s.sco) (hcl : Clean s a)
    (hs : Rt.step s a = some s') (j : Nat) : CoE j s' := by
  by_cases hj : ∃ c, a = .call c ∧ s.sco.cur = some j
  · obtain ⟨c, rfl, hj⟩ := hj
    obtain ⟨c1, c2, c3, c4, _⟩ := hcl c j rfl hj
    exact CoE.call hF hL hC hw hj ⟨c1, c2, c3, c4, fun hc => ((h j).cc hc).imp fun _ hk => (List.mem_filter.mp hk).1⟩ hs
  · by_cases hn : (a = .call .start ∨ a = .call .genStart) ∧ j = s.sco.nextId + 1
    · obtain ⟨ha, rfl⟩ := hn
      obtain ⟨i, g, hc, e1, _⟩ := start_new ha hs
      have hcan : (newCo s i g).canceled = false := by
        refine newCo_canceled ?_ i g
        rcases ha with ha | ha <;> subst ha
        · exact (hcl _ i rfl hc).2.2.2.2 (.inl rfl)
        · exact (hcl _ i rfl hc).2.2.2.2 (.inr rfl)
      have hp := newCo_pc s i g
      refine CoB.plain ⟨?_, ?_, ?_⟩ (by rw [e1, hp.1]; rfl)
      · rw [e1, hp.2]; simp
      · rw [e1, hcan]; simp
      · rw [e1, hp.2]; simp
    · exact (h j).step1 hF hL hC hw (fun c e hc => hj ⟨c, e, hc⟩) (fun ha e => hn ⟨ha, e⟩) hs

theorem init_coE (a e : Bool) (j : Nat) : CoE j (init a e) := by
  refine CoB.plain ⟨?_, ?_, ?_⟩ ?_ <;> by_cases h : j = 1 <;> simp [init, h, plainPc]

theorem Reach.mono {ok ok' : S → Act → Prop} (h : ∀ s a, ok s a → ok' s a) {s : S} (r : Reach ok s) : Reach ok' s := by
  induction r with
  | init a e => exact .init a e
  | step _ a ho hs ih => exact .step ih a (h _ _ ho) hs

theorem reach_coE {s : S} (r : Reach Clean s) : ∀ j, CoE j s := by
  induction r with
  | init a e => exact init_coE a e
  | step h a ho hs ih => exact CoE.step ih (reach_invF h) (reach_invL h) (reach_invC h) (reach_scoWF h) ho hs

theorem Fresh.reach {s : S} {i : Nat} (f : Fresh i s) : Reach any s := by
  induction f with
  | call r hi hn hs => exact .step r _ trivial hs
  | step f ha hs ih => exact .step ih _ trivial hs

theorem Fresh.old {s : S} {i : Nat} (f : Fresh i s) : i ≤ s.sco.nextId := by
  induction f with
  | call r hi hn hs => exact Nat.le_trans (cur_le (reach_scoWF r) hi).2 (step_nextId (reach_scoWF r) hs)
  | step f ha hs ih => exact Nat.le_trans ih (step_nextId (reach_scoWF f.reach) hs)

/-- a call made with no wake-up left over means what it says -/
theorem Fresh.coE {s : S} {i : Nat} (f : Fresh i s) : CoE i s := by
  induction f with
  | call r hi hn hs => exact CoE.call (reach_invF r) (reach_invL r) (reach_invC r) (reach_scoWF r) hi hn hs
  | step f ha hs ih =>
    have r := f.reach
    exact ih.step1 (reach_invF r) (reach_invL r) (reach_invC r) (reach_scoWF r) ha (fun _ e => by have := f.old; omega) hs

end Neco.Rt
