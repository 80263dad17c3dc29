import Verif.Proof.RtEvid5
/-!
# What a coroutine does inside the library keeps its evidence
-/
namespace Neco.Rt
open Neco.Err

theorem CoB.out {i : Nat} {s t : S} {es : List Ev} (h : CoB i s) (o : Out i s t es) : CoB i t := by
  refine ⟨?_, ?_, ?_⟩
  · rw [o.ca, o.clk]; exact fun hd => h.dd (o.dd hd)
  · intro hc; obtain ⟨k, hk⟩ := h.cc (o.cc hc); exact ⟨k, by rw [o.log]; exact List.mem_append.mpr (.inr hk)⟩
  · rw [o.ca, o.jb]; intro h1 h2; obtain ⟨h3, h4⟩ := h.st h1 h2; exact ⟨fun hm => h3 (o.mem _ hm), h4⟩

theorem CoE.fin {i : Nat} {s t : S} {es : List Ev} {v : Int} (h : CoE i s) (o : Out i s t es) (hes : ∀ e ∈ es, isCallOf i e = false) (hp : retPc (t.co i).pc = some v)
    (hv : v = CANCELED → ∃ k, .cancel k i ∈ lg i s) (hT : v = TIMEDOUT → ∃ dl, callDl (s.co i).call = some dl ∧ dl < s.clock)
    (hok : CallOk i (s.co i).call (s.co i).gen v (t.co i).rdat (es ++ sn i s) s.clock) : CoE i t := by
  refine (h.base.out o).ret hp ⟨?_, ?_, ?_⟩
  · intro hc; obtain ⟨k, hk⟩ := hv hc; exact ⟨k, by rw [o.log]; exact List.mem_append.mpr (.inr hk)⟩
  · rw [o.ca, o.clk]; exact hT
  · rw [o.ca, o.gen, o.clk, sn_ext o.log hes]; exact hok

/-- the result of `checkdl` after waiting -/
theorem dlMax {s : S} {i : Nat} : ((s.co i).canceled = true ∧ dlCode s i MAX = CANCELED) ∨
    ((s.co i).canceled = false ∧ (s.co i).deadlined = true ∧ dlCode s i MAX = TIMEDOUT) ∨
    ((s.co i).canceled = false ∧ (s.co i).deadlined = false ∧ dlCode s i MAX = OK) := by
  unfold dlCode
  cases (s.co i).canceled <;> cases (s.co i).deadlined <;> simp

theorem dlCode_congr {s t : S} {i : Nat} (h1 : (t.co i).canceled = (s.co i).canceled) (h2 : (t.co i).deadlined = (s.co i).deadlined) :
    dlCode t i MAX = dlCode s i MAX := by
  unfold dlCode; rw [h1, h2]; simp

theorem Out.cl {i : Nat} {s t : S} {es : List Ev} (h : Out i s t es) : Out i s (Rt.dlClear t i) es := h.dlClear
theorem Out.ret {i : Nat} {s t : S} {es : List Ev} (h : Out i s t es) {v : Int} : Out i s (retv t i v) es := h.upd (f := fun k => { k with pc := .ret v }) (fun k => by simp)
theorem Out.pc {i : Nat} {s t : S} {es : List Ev} (h : Out i s t es) {p : Pc} : Out i s (setPc t i p) es := h.upd (f := fun k => { k with pc := p }) (fun k => by simp)
theorem Out.rm {i : Nat} {s t : S} {es : List Ev} (h : Out i s t es) {n : Node} : Out i s (rm t n) es :=
  ⟨h.log, h.ca, h.gen, h.dd, h.cc, fun L hx => h.mem L (mem_rm.mp hx).1, h.jb, h.clk⟩
theorem Out.selRm {i j : Nat} {s t : S} {es : List Ev} (h : Out i s t es) : Out i s (selRm t j) es :=
  ⟨h.log, h.ca, h.gen, h.dd, h.cc, fun L hx => h.mem L (List.mem_filter.mp hx).1, h.jb, h.clk⟩

theorem unpause_out (s : S) (i : Nat) : Out i s (unpause s i) [] := by
  unfold unpause; split
  · have o1 : Out i s (upd s i (fun c => { c with paused := false, deadline := 0 })) [] := Out.refl.upd (fun k => by simp)
    exact o1.eqs
  · exact .refl

/-- the events of `preBlk`: a withdrawal, if the sender is still queued -/
theorem preBlk_out (s : S) (i : Nat) (b : Blk) : ∃ es, Out i s (preBlk s i b) es ∧ (∀ e ∈ es, isCallOf i e = false) ∧ (b ≠ .send → es = []) ∧
    ((¬ inQ i s) → es = []) ∧ (preBlk s i b).co = s.co ∧ (preBlk s i b).lists = s.lists := by
  cases b <;> try exact ⟨[], .refl, by simp, by simp, by simp, rfl, rfl⟩
  unfold preBlk; dsimp only; split
  · rename_i c _
    unfold noteWithdraw; split
    · rename_i hm
      exact ⟨[.withdraw c i], Out.refl.note (by simp [Ev.about]), by simp [isCallOf], by simp, fun hn => absurd ⟨.chanQ c, by simp, by simp, hm⟩ hn, rfl, rfl⟩
    · exact ⟨[], .refl, by simp, by simp, by simp, rfl, rfl⟩
  · exact ⟨[], .refl, by simp, by simp, by simp, rfl, rfl⟩

section
variable {i : Nat} {s : S} (h : CoE i s) (hF : CoF i s) (hcur : s.sco.cur = some i) (hnp : i ∉ s.sco.paused)

include h hF hnp in
theorem CoE.woke {b : Blk} (hp : (s.co i).pc = .blk b) : (s.co i).canceled = true ∨ (s.co i).deadlined = true ∨ reason i s b := by
  cases hpa : (s.co i).paused with
  | true => exact (h.bk b hp).wk hpa hnp
  | false =>
    rcases hF.np (by rw [hp]; rfl) hpa with h | h
    · exact .inl h
    · exact .inr (.inl h)

include h hF hnp in
theorem CoE.coded {b : Blk} (hp : (s.co i).pc = .blk b) {t : S} {es : List Ev} {v : Int} (o : Out i s t es) (hes : ∀ e ∈ es, isCallOf i e = false)
    (hpt : retPc (t.co i).pc = some v) (hvc : dlCode s i MAX ≠ OK → v = dlCode s i MAX)
    (hno : ∀ v, v < 0 → CallOk i (s.co i).call (s.co i).gen v (t.co i).rdat (es ++ sn i s) s.clock)
    (hyes : reason i s b → dlCode s i MAX = OK → v ≠ CANCELED ∧ v ≠ TIMEDOUT ∧ CallOk i (s.co i).call (s.co i).gen v (t.co i).rdat (es ++ sn i s) s.clock) : CoE i t := by
  have hc := hF.blk_call hp
  rcases dlMax (s := s) (i := i) with ⟨h1, h2⟩ | ⟨h1, h2, h3⟩ | ⟨h1, h2, h3⟩
  · have hv := hvc (by rw [h2]; nov)
    rw [h2] at hv; subst hv
    exact h.fin o hes hpt (fun _ => h.cc h1) (by nov) (hno _ (by nov))
  · have hv := hvc (by rw [h3]; nov)
    rw [h3] at hv; subst hv
    exact h.fin o hes hpt (by nov) (fun _ => h.dd h2 hc.1) (hno _ (by nov))
  · have hr : reason i s b := by
      rcases h.woke hF hnp hp with h | h | h
      · rw [h1] at h; simp at h
      · rw [h2] at h; simp at h
      · exact h
    obtain ⟨a, b, c⟩ := hyes hr h3
    exact h.fin o hes hpt (fun e => absurd e a) (fun e => absurd e b) c

include h hF hnp in
theorem afterBlk_coe {b : Blk} (hp : (s.co i).pc = .blk b) : CoE i (afterBlk (preBlk (unpause s i) i b) i b) := by
  obtain ⟨es, o1, hes, hb, hq, hco, hli⟩ := preBlk_out (unpause s i) i b
  have o : Out i s (preBlk (unpause s i) i b) es := by
    have o0 := unpause_out s i
    refine ⟨by rw [o1.log, o0.log]; rfl, o1.ca.trans o0.ca, o1.gen.trans o0.gen, fun x => o0.dd (o1.dd x), fun x => o0.cc (o1.cc x), fun L x => o0.mem L (o1.mem L x), o1.jb.trans o0.jb, o1.clk.trans o0.clk⟩
  have hk := unpause_keep s i
  rw [← hco] at hk
  have hli' : (preBlk (unpause s i) i b).lists = s.lists := by rw [hli]; unfold unpause; split <;> rfl
  have hq' : ¬ inQ i s → es = [] := fun hn => hq (by unfold inQ at hn ⊢; rw [show (unpause s i).lists = s.lists by unfold unpause; split <;> rfl]; exact hn)
  generalize preBlk (unpause s i) i b = u at *
  obtain ⟨k1, k2, k3, k4, k5, k6, k7, k8, k9, k10⟩ := hk
  have hdl : ∀ t : S, t.co = u.co → dlCode t i MAX = dlCode s i MAX := fun t ht => dlCode_congr (by rw [ht, k1]) (by rw [ht, k3])
  have hOwn := (h.bk b hp).sv
  obtain ⟨dl, hbc, _⟩ := hF.bc b hp
  cases b with
  | sleep =>
    have := hb (by simp); subst this
    simp only [afterBlk]
    simp only [BlkC] at hbc
    have o2 : Out i s { u with nsleepers := u.nsleepers - 1 } [] := o.eqs
    have hcc : ((retv (dlClear { u with nsleepers := u.nsleepers - 1 } i) i (if (u.co i).canceled = true then CANCELED else OK)).co i).pc = .ret (if (s.co i).canceled = true then CANCELED else OK) := by
      simp [retv_co, k1]
    refine h.fin o2.cl.ret hes (v := if (s.co i).canceled = true then CANCELED else OK) (by rw [hcc]; rfl) ?_ ?_ ?_
    · intro hv; split at hv
      · rename_i hx; exact h.cc hx
      · simp [OK, CANCELED] at hv
    · intro hv; split at hv <;> simp [OK, CANCELED, TIMEDOUT] at hv
    · rw [hbc]; simp only [CallOk]; intro hv
      split at hv
      · simp [OK, CANCELED] at hv
      · rename_i hx
        rcases h.woke hF hnp hp with h1 | h1 | h1
        · exact absurd h1 hx
        · obtain ⟨dl', h2, h3⟩ := h.dd h1 (by rw [hbc]; simp)
          rw [hbc] at h2; cases h2; exact h3
        · exact absurd h1 (by simp [reason])
  | send =>
    simp only [afterBlk]
    have o2 : Out i s { u with nsenders := u.nsenders - 1 } es := o.eqs
    have hd2 := hdl { u with nsenders := u.nsenders - 1 } rfl
    rw [hd2]
    refine h.coded hF hnp hp (v := dlCode s i MAX) o2.rm.cl.ret hes (by simp [retv_co, retPc]) (fun _ => rfl) ?_ ?_
    · intro v hv
      rcases hbc with ⟨k, m, hc⟩ | ⟨m, hc⟩ <;> rw [hc] <;> simp only [CallOk] <;> intro hx <;> subst hx <;> simp [OK] at hv
    · intro hr h3
      rw [h3]
      have := hq' hr; subst this
      refine ⟨by nov, by nov, ?_⟩
      unfold Own at hOwn
      rcases hbc with ⟨k, m, hc⟩ | ⟨m, hc⟩ <;> rw [hc] at hOwn ⊢ <;> simp only [CallOk] <;> intro _ <;> exact hOwn
  | recv =>
    have := hb (by simp); subst this
    obtain ⟨k, hc⟩ := hbc
    unfold Own at hOwn; rw [hc] at hOwn
    simp only at hOwn
    simp only [afterBlk]
    have o2 : Out i s { u with nreceivers := u.nreceivers - 1 } [] := o.eqs
    have hno : ∀ d v, v < 0 → v ≠ CLOSED → CallOk i (s.co i).call (s.co i).gen v d ([] ++ sn i s) s.clock := by
      intro d v hv hv'; rw [hc]; simp only [CallOk]
      exact ⟨fun hx => by subst hx; simp [OK] at hv, fun hx => absurd hx hv'⟩
    have hd2 := hdl (rm { u with nreceivers := u.nreceivers - 1 } (.co i)) rfl
    rw [hd2]
    rcases dlMax (s := s) (i := i) with ⟨h1, h2⟩ | ⟨h1, h2, h3⟩ | ⟨h1, h2, h3⟩
    · rw [if_pos (by rw [h2]; nov), h2]
      exact h.fin o2.rm.cl.ret hes (v := CANCELED) (by simp [retv_co, retPc]) (fun _ => h.cc h1) (by nov) (hno _ _ (by nov) (by nov))
    · rw [if_pos (by rw [h3]; nov), h3]
      exact h.fin o2.rm.cl.ret hes (v := TIMEDOUT) (by simp [retv_co, retPc]) (by nov) (fun _ => h.dd h2 (by rw [hc]; simp)) (hno _ _ (by nov) (by nov))
    · rw [if_neg (by rw [h3]; simp)]
      have hr : ¬ inQ i s := by
        rcases h.woke hF hnp hp with h | h | h
        · rw [h1] at h; simp at h
        · rw [h2] at h; simp at h
        · exact h
      split
      · rename_i hcl
        have hcl' : (s.co i).cclosed = true := by rw [← k7]; exact hcl
        have hf : (sn i s).filter isDeliv = [] := by
          rcases hOwn with h | h | h
          · exact absurd h.1 hr
          · exact h.2.2
          · rw [hcl'] at h; simp at h
        have o2' : Out i s { rm { u with nreceivers := u.nreceivers - 1 } (.co i) with fault := (rm { u with nreceivers := u.nreceivers - 1 } (.co i)).fault || recvGone (rm { u with nreceivers := u.nreceivers - 1 } (.co i)) i } [] := (o2.rm (n := .co i)).eqs
        have o3 := o2'.cl.upd (f := fun k => { k with cclosed := false, rdat := 0 }) (fun k => by simp)
        refine h.fin o3.ret hes (v := CLOSED) (by simp [retv_co, retPc]) (by nov) (by nov) ?_
        rw [hc]; simp only [CallOk]
        exact ⟨by nov, fun _ => hf⟩
      · rename_i hcl
        have hcl' : (s.co i).cclosed = false := by rw [← k7]; simpa using hcl
        refine h.fin o2.rm.cl.ret hes (v := OK) (by simp [retv_co, retPc]) (by nov) (by nov) ?_
        rw [hc]; simp only [CallOk]
        refine ⟨fun _ => ?_, by nov⟩
        rcases hOwn with h | h | h
        · exact absurd h.1 hr
        · rw [hcl'] at h; simp at h
        · have e : ((retv (dlClear (Rt.rm { u with nreceivers := u.nreceivers - 1 } (.co i)) i) i OK).co i).rdat = (s.co i).rdat := by
            rw [← k5]; simp [retv_co, dlClear_co]
          rw [e]; exact h.2.2
  | sel =>
    have := hb (by simp); subst this
    obtain ⟨cs, hc⟩ := hbc
    unfold Own at hOwn; rw [hc] at hOwn
    simp only at hOwn
    simp only [afterBlk]
    have o2 : Out i s { u with nreceivers := u.nreceivers - 1 } [] := o.eqs
    have hd2 := hdl (selRm { u with nreceivers := u.nreceivers - 1 } i) rfl
    have hri : ((selRm { u with nreceivers := u.nreceivers - 1 } i).co i).retIdx = (s.co i).retIdx := k6
    rw [hd2, hri]
    refine h.coded hF hnp hp (v := if dlCode s i MAX = OK then (s.co i).retIdx else dlCode s i MAX) o2.selRm.cl.ret hes (by simp [retv_co, retPc]) (fun h => by simp [h]) ?_ ?_
    · intro v hv; rw [hc]; simp only [CallOk]; intro hx; omega
    · intro hr h3
      rw [if_pos h3]
      simp only [reason] at hr
      rcases hOwn with h | ⟨k, c, h4, h5, h6⟩
      · exact absurd h.1 hr
      · rw [h4, hc]
        refine ⟨by simp [CANCELED], by simp [TIMEDOUT], ?_⟩
        simp only [CallOk]; intro _
        exact ⟨c, by simpa using h5, h6⟩
  | lock rd =>
    have := hb (by simp); subst this
    simp only [afterBlk]
    have o2 : Out i s { u with nlocked := u.nlocked - 1 } [] := o.eqs
    have o3 := o2.rm (n := .co i) |>.upd (f := fun k => { k with rlocked := false }) (fun k => by simp)
    have hd2 : dlCode (upd (rm { u with nlocked := u.nlocked - 1 } (.co i)) i (fun k => { k with rlocked := false })) i MAX = dlCode s i MAX :=
      dlCode_congr (by simpa [upd_co] using k1) (by simpa [upd_co] using k3)
    rw [hd2]
    refine h.coded hF hnp hp (v := dlCode s i MAX) o3.cl.ret hes (by simp [retv_co, retPc]) (fun _ => rfl) ?_ ?_
    · intro v hv
      cases rd <;> obtain ⟨m, hc⟩ := hbc <;> rw [hc] <;> simp only [CallOk] <;> intro hx <;> subst hx <;> simp [OK] at hv
    · intro hr h3
      rw [h3]
      refine ⟨by nov, by nov, ?_⟩
      unfold Own at hOwn
      cases rd <;> obtain ⟨m, hc⟩ := hbc <;> rw [hc] at hOwn ⊢ <;> simp only [CallOk] <;> intro _ <;> exact hOwn.resolve_left hr
  | relock =>
    have := hb (by simp); subst this
    obtain ⟨⟨q, m, d, hc⟩, _⟩ := hbc
    unfold Own at hOwn; rw [hc] at hOwn
    obtain ⟨hrel, hsav, hg⟩ := hOwn
    simp only [afterBlk]
    have o2 : Out i s { u with nlocked := u.nlocked - 1 } [] := o.eqs
    have o3 := o2.rm (n := .co i) |>.upd (f := fun k => { k with rlocked := false }) (fun k => by simp)
    have hd2 : dlCode (upd (rm { u with nlocked := u.nlocked - 1 } (.co i)) i (fun k => { k with rlocked := false })) i MAX = dlCode s i MAX :=
      dlCode_congr (by simpa [upd_co] using k1) (by simpa [upd_co] using k3)
    have hsv : ((upd (rm { u with nlocked := u.nlocked - 1 } (.co i)) i (fun k => { k with rlocked := false })).co i).sav = (s.co i).sav := by simpa [upd_co] using k8
    rw [hd2, hsv]
    generalize upd (rm { u with nlocked := u.nlocked - 1 } (.co i)) i (fun k => { k with rlocked := false }) = w at *
    split
    · rename_i h3
      have hr : ¬ inQ i s := by
        rcases dlMax (s := s) (i := i) with ⟨h1, h2⟩ | ⟨h1, h2, h4⟩ | ⟨h1, h2, _⟩
        · rw [h2] at h3; simp [OK, CANCELED] at h3
        · rw [h4] at h3; simp [OK, TIMEDOUT] at h3
        · rcases h.woke hF hnp hp with h | h | h
          · rw [h1] at h; simp at h
          · rw [h2] at h; simp at h
          · exact h
      refine h.fin o3.cl.ret hes (v := (s.co i).sav) (by simp [retv_co, retPc]) hsav.1 ?_ ?_
      · intro hv; exact ⟨d, by rw [hc]; rfl, hsav.2.1 hv⟩
      · rw [hc]; simp only [CallOk]
        exact ⟨.inr (hg.resolve_left hr), hsav.2.2⟩
    · split
      · have o4 : Out i s (note (dlClear w i) (.kill i false)) [.kill i false] := o3.cl.note (by simp [Ev.about])
        exact (h.base.out o4.pc).plain (by simp [setPc_co, plainPc])
      · have o4 : Out i s (setPc (dlClear w i) i .relock) [] := o3.cl.pc
        have hB := h.base.out o4
        have hpc : ((setPc (dlClear w i) i .relock).co i).pc = .relock := by simp [setPc_co]
        have hca : ((setPc (dlClear w i) i .relock).co i).call = .cvWait q m d := by rw [o4.ca, hc]
        refine ⟨hB.dd, hB.cc, hB.st, ?_, ?_, ?_, ?_, ?_, ?_⟩
        · rw [hpc]; simp
        · rw [hpc]; simp
        · rw [hpc]; simp [retPc]
        · rw [hpc]; simp
        · intro _
          refine ⟨q, m, d, hca, by rw [sn_ext o4.log (by simp)]; exact hrel, fun _ => hsav.mono o4.log (by simp) (by rw [o4.clk]; exact Int.le_refl _) ?_⟩
          simpa [setPc_co, dlClear_co] using hsv
        · rw [hpc]; simp
  | wg =>
    have := hb (by simp); subst this
    obtain ⟨w, hc⟩ := hbc
    unfold Own at hOwn; rw [hc] at hOwn
    simp only at hOwn
    simp only [afterBlk]
    have o2 : Out i s { u with nwaitgroupers := u.nwaitgroupers - 1 } [] := o.eqs
    have hd2 := hdl (rm { u with nwaitgroupers := u.nwaitgroupers - 1 } (.co i)) rfl
    rw [hd2]
    refine h.coded hF hnp hp (v := dlCode s i MAX) o2.rm.cl.ret hes (by simp [retv_co, retPc]) (fun _ => rfl) ?_ ?_
    · intro v hv; rw [hc]; simp only [CallOk]; intro hx; subst hx; simp [OK] at hv
    · intro hr h3
      rw [h3, hc]
      exact ⟨by nov, by nov, fun _ => .inl (hOwn.resolve_left hr)⟩
  | cond =>
    have := hb (by simp); subst this
    obtain ⟨q, m, hc⟩ := hbc
    unfold Own at hOwn; rw [hc] at hOwn
    obtain ⟨hrel, hg⟩ := hOwn
    simp only [afterBlk]
    have o2 : Out i s { u with ncondwaiters := u.ncondwaiters - 1 } [] := o.eqs
    have hd2 := hdl (rm { u with ncondwaiters := u.ncondwaiters - 1 } (.co i)) rfl
    rw [hd2]
    have o3 := o2.rm (n := .co i)
    generalize rm { u with ncondwaiters := u.ncondwaiters - 1 } (.co i) = w at *
    have o4 : Out i s (setPc (upd (dlClear w i) i (fun k => { k with sav := dlCode s i MAX })) i .relock) [] :=
      (o3.cl.upd (f := fun k => { k with sav := dlCode s i MAX }) (fun k => by simp)).pc
    have hpc : ((setPc (upd (dlClear w i) i (fun k => { k with sav := dlCode s i MAX })) i .relock).co i).pc = .relock := by simp [setPc_co]
    have hsv : ((setPc (upd (dlClear w i) i (fun k => { k with sav := dlCode s i MAX })) i .relock).co i).sav = dlCode s i MAX := by simp [setPc_co, upd_co]
    generalize setPc (upd (dlClear w i) i (fun k => { k with sav := dlCode s i MAX })) i .relock = x at *
    have hB := h.base.out o4
    have hsn : sn i x = sn i s := by have := sn_ext o4.log (by simp); simpa using this
    have hlg : lg i x = lg i s := by have := o4.log; simpa using this
    refine ⟨hB.dd, hB.cc, hB.st, ?_, ?_, ?_, ?_, ?_, ?_⟩
    · rw [hpc]; simp
    · rw [hpc]; simp
    · rw [hpc]; simp [retPc]
    · rw [hpc]; simp
    · intro _
      refine ⟨q, m, dl, by rw [o4.ca, hc], by rw [hsn]; exact hrel, fun _ => ⟨?_, ?_, ?_⟩⟩
      · rw [hsv, hlg]; intro hv; exact h.cc (dlCode_canceled.mp hv)
      · rw [hsv, o4.clk]; intro hv
        rcases dlMax (s := s) (i := i) with ⟨h1, h2⟩ | ⟨h1, h2, h3⟩ | ⟨h1, h2, h3⟩
        · rw [h2] at hv; simp [TIMEDOUT, CANCELED] at hv
        · obtain ⟨d', h4, h5⟩ := h.dd h2 (by rw [hc]; simp)
          rw [hc] at h4; cases h4; exact h5
        · rw [h3] at hv; simp [TIMEDOUT, OK] at hv
      · rw [hsv, hsn]; intro hv
        rcases dlMax (s := s) (i := i) with ⟨h1, h2⟩ | ⟨h1, h2, h3⟩ | ⟨h1, h2, h3⟩
        · rw [h2] at hv; simp [OK, CANCELED] at hv
        · rw [h3] at hv; simp [TIMEDOUT, OK] at hv
        · have hr : ¬ inQ i s := by
            rcases h.woke hF hnp hp with h | h | h
            · rw [h1] at h; simp at h
            · rw [h2] at h; simp at h
            · exact h
          exact hg.resolve_left hr
    · rw [hpc]; simp
  | join =>
    have := hb (by simp); subst this
    obtain ⟨w, hc⟩ := hbc
    unfold Own at hOwn; rw [hc] at hOwn
    simp only at hOwn
    simp only [afterBlk]
    have hd2 := hdl (rm u (.co i)) rfl
    rw [hd2]
    refine h.coded hF hnp hp (v := dlCode s i MAX) o.rm.cl.ret hes (by simp [retv_co, retPc]) (fun _ => rfl) ?_ ?_
    · intro v hv; rw [hc]; simp only [CallOk]; intro hx; subst hx; simp [OK] at hv
    · intro hr h3
      rw [h3, hc]
      exact ⟨by nov, by nov, fun _ => .inl (hOwn.resolve_left hr)⟩
  | cancel =>
    simp only [afterBlk]
    exact (h.base.out o.rm.pc).plain (by simp [setPc_co, plainPc])
  | susp =>
    have := hb (by simp); subst this
    simp only [BlkC] at hbc
    simp only [afterBlk]
    have o2 : Out i s { u with nsuspended := u.nsuspended - 1 } [] := o.eqs
    have o3 := o2.upd (f := fun k => { k with suspended := false }) (fun k => by simp)
    have hd2 : dlCode (upd { u with nsuspended := u.nsuspended - 1 } i (fun k => { k with suspended := false })) i MAX = dlCode s i MAX :=
      dlCode_congr (by simpa [upd_co] using k1) (by simpa [upd_co] using k3)
    rw [hd2]
    refine h.coded hF hnp hp (v := dlCode s i MAX) o3.cl.ret hes (by simp [retv_co, retPc]) (fun _ => rfl) ?_ ?_
    · intro v hv; rw [hbc]; simp only [CallOk]; intro hx; subst hx; simp [OK] at hv
    · intro hr h3
      rw [h3, hbc]
      exact ⟨by nov, by nov, fun _ => hr⟩
  | sig =>
    have := hb (by simp); subst this
    simp only [BlkC] at hbc
    unfold Own at hOwn; rw [hbc] at hOwn
    simp only at hOwn
    simp only [afterBlk]
    have o2 : Out i s { u with nsigwaiters := u.nsigwaiters - 1 } [] := o.eqs
    have o3 := o2.rm (n := .co i) |>.upd (f := fun k => { k with sigmask := 0 }) (fun k => by simp)
    have hd2 : dlCode (upd (rm { u with nsigwaiters := u.nsigwaiters - 1 } (.co i)) i (fun k => { k with sigmask := 0 })) i MAX = dlCode s i MAX :=
      dlCode_congr (by simpa [upd_co] using k1) (by simpa [upd_co] using k3)
    rw [hd2, k9]
    refine h.coded hF hnp hp (v := if dlCode s i MAX = OK then ((s.co i).sigmask : Int) else dlCode s i MAX) o3.cl.ret hes (by simp [retv_co, retPc]) (fun h => by simp [h]) ?_ ?_
    · intro v hv; rw [hbc]; simp only [CallOk]; intro hx; omega
    · intro hr h3
      rw [if_pos h3, hbc]
      refine ⟨by simp [CANCELED], by simp [TIMEDOUT], ?_⟩
      simp only [CallOk]; intro _
      simpa using hOwn.2 hr
  | wait =>
    have := hb (by simp); subst this
    obtain ⟨fd, w, hc⟩ := hbc
    simp only [afterBlk]
    have o2 : Out i s { u with nevwaiters := u.nevwaiters - 1, evw := u.evw.filter (fun e => decide (e.2.2 ≠ i)) } [] := o.eqs
    have hd2 := hdl { u with nevwaiters := u.nevwaiters - 1, evw := u.evw.filter (fun e => decide (e.2.2 ≠ i)) } rfl
    rw [hd2]
    refine h.coded hF hnp hp (v := dlCode s i MAX) o2.cl.ret hes (by simp [retv_co, retPc]) (fun _ => rfl) ?_ ?_
    · intro v hv; rw [hc]; simp only [CallOk]; intro hx; subst hx; simp [OK] at hv
    · intro hr h3
      rw [h3, hc]
      refine ⟨by nov, by nov, fun _ => ?_⟩
      obtain ⟨fd', w', dl', h1, h2⟩ := hr
      rw [hc] at h1; cases h1; exact h2

end
end Neco.Rt
