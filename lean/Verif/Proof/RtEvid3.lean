import Verif.Proof.RtEvid2
/-!
# What others do keeps the evidence of a blocked coroutine
-/
namespace Neco.Rt
open Neco.Err

theorem BlkC.dl {b : Blk} {c : Call} {dl : Int} (h : BlkC b c dl) : callDl c = some dl ∨ dl = MAX := by
  cases b with
  | lock rd => cases rd <;> (obtain ⟨m, rfl⟩ := h; exact .inl rfl)
  | sleep => subst h; exact .inl rfl
  | send => rcases h with ⟨k, m, rfl⟩ | ⟨m, rfl⟩ <;> exact .inl rfl
  | relock => exact .inr h.2
  | cond => obtain ⟨v, m, rfl⟩ := h; exact .inl rfl
  | susp => subst h; exact .inl rfl
  | sig => subst h; exact .inl rfl
  | wait => obtain ⟨v, m, rfl⟩ := h; exact .inl rfl
  | _ => obtain ⟨m, rfl⟩ := h; exact .inl rfl

theorem BlkC.call_ne {b : Blk} {c : Call} {dl : Int} (h : BlkC b c dl) : c ≠ .none ∧ c ≠ .work := by
  cases b with
  | lock rd => cases rd <;> (obtain ⟨m, rfl⟩ := h; simp)
  | sleep => subst h; simp
  | send => rcases h with ⟨k, m, rfl⟩ | ⟨m, rfl⟩ <;> simp
  | relock => obtain ⟨⟨_, _, _, rfl⟩, _⟩ := h; simp
  | cond => obtain ⟨v, m, rfl⟩ := h; simp
  | susp => subst h; simp
  | sig => subst h; simp
  | wait => obtain ⟨v, m, rfl⟩ := h; simp
  | _ => obtain ⟨m, rfl⟩ := h; simp

theorem CoF.blk_call {j : Nat} {s : S} {b : Blk} (h : CoF j s) (hp : (s.co j).pc = .blk b) : (s.co j).call ≠ .none ∧ (s.co j).call ≠ .work := by
  obtain ⟨dl, h1, _⟩ := h.bc b hp; exact h1.call_ne

/-- a quiet change keeps what a blocked coroutine knows -/
theorem reason_quiet {j : Nat} {s t : S} {es : List Ev} {b : Blk} (hl : lg j t = es ++ lg j s) (hes : ∀ e ∈ es, e = .wdone j ∨ ∃ k, e = .cancel k j)
    (hc : (t.co j).call = (s.co j).call) (hr : (t.co j).retIdx = (s.co j).retIdx) (hq : inQ j t ↔ inQ j s) : reason j t b ↔ reason j s b := by
  have hs : sn j t = es ++ sn j s := sn_ext hl (isCallOf_quiet hes)
  have me : ∀ e : Ev, (e ≠ .wdone j) → (∀ k, e ≠ .cancel k j) → (e ∈ sn j t ↔ e ∈ sn j s) := by
    intro e h1 h2; rw [hs, List.mem_append]
    constructor
    · rintro (h | h)
      · rcases hes e h with h | ⟨k, h⟩
        · exact absurd h h1
        · exact absurd h (h2 k)
      · exact h
    · exact .inr
  cases b <;> simp only [reason, hq, hr, hc]
  case susp => exact exists_congr fun k => me _ (by simp) (by simp)
  case wait => exact exists_congr fun fd => exists_congr fun w => exists_congr fun dl => and_congr Iff.rfl (me _ (by simp) (by simp))
  case sig => exact exists_congr fun k => me _ (by simp) (by simp)

theorem Own.quiet {j : Nat} {s t : S} {es : List Ev} {b : Blk} (h : Own j s b) (hl : lg j t = es ++ lg j s) (hes : ∀ e ∈ es, e = .wdone j ∨ ∃ k, e = .cancel k j)
    (hc : (t.co j).call = (s.co j).call) (hr : (t.co j).retIdx = (s.co j).retIdx) (hg : (t.co j).gen = (s.co j).gen)
    (hd : (t.co j).rdat = (s.co j).rdat) (hcl : (t.co j).cclosed = (s.co j).cclosed) (hm : (t.co j).sigmask = (s.co j).sigmask)
    (hsv : (t.co j).sav = (s.co j).sav) (hk : s.clock ≤ t.clock) (hq : inQ j t ↔ inQ j s) : Own j t b := by
  have hs : sn j t = es ++ sn j s := sn_ext hl (isCallOf_quiet hes)
  have fD : (es ++ sn j s).filter isDeliv = (sn j s).filter isDeliv := by
    rw [List.filter_append, filter_quiet hes rfl (fun _ => rfl)]; rfl
  have fP : (es ++ sn j s).filter isPut = (sn j s).filter isPut := by
    rw [List.filter_append, filter_quiet hes rfl (fun _ => rfl)]; rfl
  have up : ∀ {e : Ev}, e ∈ sn j s → e ∈ es ++ sn j s := fun h => List.mem_append.mpr (.inr h)
  have dn : ∀ n, Ev.sigTo n j ∈ es ++ sn j s → Ev.sigTo n j ∈ sn j s := by
    intro n h; rcases List.mem_append.mp h with h | h
    · rcases hes _ h with h | ⟨k, h⟩ <;> simp at h
    · exact h
  unfold Own at h ⊢
  rw [hc]
  split at h <;> simp only [hs, fD, fP, hq, hr, hg, hd, hcl, hm] <;> first | trivial | assumption | skip
  · rcases h with h | h
    · exact .inl h
    · exact .inr (up h)
  · rcases h with h | h
    · exact .inl h
    · exact .inr (up h)
  · refine ⟨up h.1, h.2.1.mono hl (isCallOf_quiet hes) hk hsv, ?_⟩
    rcases h.2.2 with h | h
    · exact .inl h
    · exact .inr h.mono
  · rcases h with h | h
    · exact .inl h
    · exact .inr (up h)
  · refine ⟨up h.1, ?_⟩
    rcases h.2 with h | h
    · exact .inl h
    · exact .inr h.mono
  · rcases h with h | h
    · exact .inl h
    · exact .inr (up h)
  · refine ⟨h.1, ?_⟩
    rintro ⟨n, hn⟩
    exact up (h.2 ⟨n, dn n hn⟩)

/-- assemble the evidence of a blocked coroutine after a change -/
theorem CoE.blk {j : Nat} {s t : S} {b : Blk} {f : Co → Co} {es : List Ev} {gone} {res up : Bool} (h : CoE j s) (hF : CoF j s) (d : Dlt j f es gone res up s t)
    (hp : (s.co j).pc = .blk b) (hf : ∀ k, (f k).pc = k.pc ∧ (f k).call = k.call)
    (hdd : (f (s.co j)).deadlined = (s.co j).deadlined ∨ ∃ dl, callDl (s.co j).call = some dl ∧ dl < s.clock)
    (hcc : (f (s.co j)).canceled = (s.co j).canceled ∨ ∃ k, .cancel k j ∈ es)
    (hb : BlkOk j t b) : CoE j t := by
  have hpc : (t.co j).pc = .blk b := by rw [d.co, (hf _).1, hp]
  have hca : (t.co j).call = (s.co j).call := by rw [d.co, (hf _).2]
  obtain ⟨c1, c2⟩ := hF.blk_call hp
  obtain ⟨s1, s2⟩ := h.st c1 c2
  refine ⟨?_, ?_, ?_, ?_, ?_, ?_, ?_, ?_, ?_⟩
  · rw [hca]; intro a b
    rcases hdd with hd | ⟨dl, e1, e2⟩
    · rw [d.co, hd] at a; obtain ⟨dl, e1, e2⟩ := h.dd a b; exact ⟨dl, e1, Int.lt_of_lt_of_le e2 d.clk⟩
    · exact ⟨dl, e1, Int.lt_of_lt_of_le e2 d.clk⟩
  · rw [d.log]; intro a
    rcases hcc with hd | ⟨k, hk⟩
    · rw [d.co, hd] at a; obtain ⟨k, hk⟩ := h.cc a; exact ⟨k, List.mem_append.mpr (.inr hk)⟩
    · exact ⟨k, List.mem_append.mpr (.inl hk)⟩
  · intro _ _
    refine ⟨fun hm => ?_, fun hj => s2 ((jobs_of_count d.jb).mp hj)⟩
    rcases (d.mem _ _ rfl).mp hm with hm | hm
    · exact s1 hm.1
    · simp at hm
  · rw [hpc]; simp
  · rw [hpc]; simp
  · rw [hpc]; simp [retPc]
  · rw [hpc]; simp
  · rw [hpc]; simp [condPc]
  · rw [hpc]; intro b' hb'; cases hb'; exact hb

theorem Dlt.notQ {j : Nat} {f : Co → Co} {es : List Ev} {gone} {res up : Bool} {s t : S} (d : Dlt j f es gone res up s t)
    (hg : ∀ L, gone (.co j) L) : ¬ inQ j t := by
  rintro ⟨L, h1, h2, h3⟩
  rcases (d.mem _ _ rfl).mp h3 with h | h
  · exact h.2 (hg L)
  · exact h1 h.2.2

theorem Dlt.inQ {j : Nat} {f : Co → Co} {es : List Ev} {gone} {res up : Bool} {s t : S} (d : Dlt j f es gone res up s t)
    (hg : ∀ L, L ≠ .resumers → L ≠ .iolist → ¬ gone (.co j) L) : inQ j t ↔ Rt.inQ j s := by
  constructor
  · rintro ⟨L, h1, h2, h3⟩
    rcases (d.mem _ _ rfl).mp h3 with h | h
    · exact ⟨L, h1, h2, h.1⟩
    · exact absurd h.2.2 h1
  · rintro ⟨L, h1, h2, h3⟩
    exact ⟨L, h1, h2, (d.mem _ _ rfl).mpr (.inl ⟨h3, hg L h1 h2⟩)⟩

/-- the changes that do not serve what the coroutine waits for -/
theorem BlkOk.quiet {j : Nat} {s t : S} {b : Blk} {f : Co → Co} {es : List Ev} {gone} {up : Bool} (h : BlkOk j s b) (d : Dlt j f es gone false up s t)
    (hes : ∀ e ∈ es, e = .wdone j ∨ ∃ k, e = .cancel k j)
    (hf : ∀ k, (f k).call = k.call ∧ (f k).retIdx = k.retIdx ∧ (f k).gen = k.gen ∧ (f k).rdat = k.rdat ∧ (f k).cclosed = k.cclosed ∧ (f k).sigmask = k.sigmask ∧ (f k).sav = k.sav ∧ (f k).paused = k.paused ∧ (k.canceled = true → (f k).canceled = true) ∧ (k.deadlined = true → (f k).deadlined = true))
    (hg : ∀ L, L ≠ .resumers → L ≠ .iolist → ¬ gone (.co j) L) (hg' : up = false → ¬ gone (.co j) .resumers)
    (hup : up = true → (s.co j).paused = true → (f (s.co j)).canceled = true ∨ (f (s.co j)).deadlined = true ∨ reason j s b) : BlkOk j t b := by
  have hq := d.inQ hg
  obtain ⟨f1, f2, f3, f4, f5, f6, f7, f8, f9, f10⟩ := hf (s.co j)
  have hr : reason j t b ↔ reason j s b := reason_quiet d.log hes (by rw [d.co, f1]) (by rw [d.co, f2]) hq
  refine ⟨?_, ?_, ?_, ?_⟩
  · rw [d.co, f8]; intro a hn
    rw [hr]
    by_cases hm : j ∈ s.sco.paused
    · cases up with
      | false => exact absurd (d.pz.mpr ⟨hm, rfl⟩) hn
      | true => exact hup rfl a
    · rcases h.wk a hm with h | h | h
      · exact .inl (f9 h)
      · exact .inr (.inl (f10 h))
      · exact .inr (.inr h)
  · intro hm; have hm := d.pz.mp hm
    rw [hr]
    rcases h.lw hm.1 with h | h
    · exact .inl h
    · exact .inr ((d.mem _ _ rfl).mpr (.inl ⟨h, hg' hm.2⟩))
  · intro hm; rw [hr]
    rcases (d.mem _ _ rfl).mp hm with hm | hm
    · exact h.rs hm.1
    · simp at hm
  · exact h.sv.quiet d.log hes (by rw [d.co, f1]) (by rw [d.co, f2]) (by rw [d.co, f3]) (by rw [d.co, f4]) (by rw [d.co, f5]) (by rw [d.co, f6]) (by rw [d.co, f7]) d.clk hq

/-- the changes that serve it -/
theorem BlkOk.served {j : Nat} {s t : S} {b : Blk} {f : Co → Co} {es : List Ev} {gone} {res up : Bool} (d : Dlt j f es gone res up s t)
    (hr : reason j t b) (hup : res = true ∨ up = true) (sv : Own j t b) : BlkOk j t b := by
  refine ⟨fun _ _ => .inr (.inr hr), ?_, fun _ => hr, sv⟩
  intro hm; have hm := (d.pz.mp hm).2
  rcases hup with h | h
  · exact .inr ((d.mem _ _ rfl).mpr (.inr ⟨h, rfl, rfl⟩))
  · rw [h] at hm; simp at hm

theorem CoE.blk_mv {j : Nat} {s t : S} {b : Blk} (h : CoE j s) (hL : CoL j s) (hF : CoF j s) (hp : (s.co j).pc = .blk b) (m : Mv j s t) : CoE j t := by
  obtain ⟨c1, c2⟩ := hF.blk_call hp
  obtain ⟨s1, s2⟩ := h.st c1 c2
  have hb := h.bk b hp
  have hsv := hb.sv
  cases m with
  | same d =>
    exact h.blk hF d hp (fun k => ⟨rfl, rfl⟩) (.inl rfl) (.inl rfl) (hb.quiet d (by simp) (fun k => by simp) (by simp) (by simp) (by simp))
  | skip g hr hg d =>
    exact h.blk hF d hp (fun k => ⟨rfl, rfl⟩) (.inl rfl) (.inl rfl) (hb.quiet d (by simp) (fun k => by simp)
      (fun L _ _ hgo => by obtain ⟨k, e⟩ := hg _ _ hgo; simp at e) (fun _ hgo => by obtain ⟨k, e⟩ := hg _ _ hgo; simp at e) (by simp))
  | canceled i he d =>
    exact h.blk hF d hp (fun k => ⟨rfl, rfl⟩) (.inl rfl) (.inr ⟨i, by simp⟩)
      (hb.quiet d (fun e he => .inr ⟨i, by simpa using he⟩) (fun k => by simp) (by simp) (by simp) (fun _ _ => .inl rfl))
  | fromRes hn d =>
    exact h.blk hF d hp (fun k => ⟨rfl, rfl⟩) (.inl rfl) (.inl rfl)
      (hb.quiet d (by simp) (fun k => by simp) (fun L h _ hg => h hg.2) (by simp) (fun _ _ => .inr (.inr (hb.rs hn))))
  | fromIo hn d => exact (s1 hn).elim
  | wdone hj co mem pz dl ev jb log clk => exact (s2 hj).elim
  | deadlined hn hd d =>
    have hpa := hF.dq.mp hn
    obtain ⟨dl, e1, e2⟩ := hF.bc b hp
    have e2 := e2 hpa.1
    have hdl : callDl (s.co j).call = some dl := by
      rcases e1.dl with h | h
      · exact h
      · rw [h] at e2; have := hpa.2; rw [e2] at this; exact absurd this (Int.lt_irrefl _)
    exact h.blk hF d hp (fun k => ⟨rfl, rfl⟩) (.inr ⟨dl, hdl, by rw [← e2]; exact hd⟩) (.inl rfl)
      (hb.quiet d (by simp) (fun k => by simp) (by simp) (by simp) (fun _ _ => .inr (.inl rfl)))
  | take c m hn hp' hc d =>
    rw [hp] at hp'; cases hp'
    obtain ⟨dl, hc⟩ := hc
    have hq := d.notQ (fun L => rfl)
    have hs : sn j t = [.take c j m] ++ sn j s := sn_ext d.log (by simp [isCallOf])
    refine h.blk hF d hp (fun k => ⟨rfl, rfl⟩) (.inl rfl) (.inl rfl) (.served d hq (.inr rfl) ?_)
    unfold Own at hsv ⊢
    rw [hc] at hsv
    rw [d.co, hs]; simp only [hc]
    have hin : inQ j s := ⟨_, by simp, by simp, hn⟩
    simp only [hin, true_and, not_true_eq_false, false_and, or_false] at hsv
    exact .inr (.inr ⟨hq, hsv.2, .inl (by simp [List.filter_cons, isDeliv, hsv.1])⟩)
  | bcast c m hn hp' hc d =>
    rw [hp] at hp'; cases hp'
    obtain ⟨dl, hc⟩ := hc
    have hq := d.notQ (fun L => rfl)
    have hs : sn j t = [.bcastTo c j m] ++ sn j s := sn_ext d.log (by simp [isCallOf])
    refine h.blk hF d hp (fun k => ⟨rfl, rfl⟩) (.inl rfl) (.inl rfl) (.served d hq (.inl rfl) ?_)
    unfold Own at hsv ⊢
    rw [hc] at hsv
    rw [d.co, hs]; simp only [hc]
    have hin : inQ j s := ⟨_, by simp, by simp, hn⟩
    simp only [hin, true_and, not_true_eq_false, false_and, or_false] at hsv
    exact .inr (.inr ⟨hq, hsv.2, .inr (by simp [List.filter_cons, isDeliv, hsv.1])⟩)
  | close c hn hp' hc d =>
    rw [hp] at hp'; cases hp'
    obtain ⟨dl, hc⟩ := hc
    have hq := d.notQ (fun L => rfl)
    have hs : sn j t = [] ++ sn j s := sn_ext d.log (by simp)
    refine h.blk hF d hp (fun k => ⟨rfl, rfl⟩) (.inl rfl) (.inl rfl) (.served d hq (.inl rfl) ?_)
    unfold Own at hsv ⊢
    rw [hc] at hsv
    rw [d.co, hs]; simp only [hc]
    have hin : inQ j s := ⟨_, by simp, by simp, hn⟩
    simp only [hin, true_and, not_true_eq_false, false_and, or_false] at hsv
    exact .inr (.inl ⟨hq, trivial, hsv.1⟩)
  | takeCase c m k hn hp' hc hr d =>
    rw [hp] at hp'; cases hp'
    obtain ⟨cs, dl, hc, hk⟩ := hc
    have hs : sn j t = [.take c j m] ++ sn j s := sn_ext d.log (by simp [isCallOf])
    refine h.blk hF d hp (fun k => ⟨rfl, rfl⟩) (.inl rfl) (.inl rfl) (.served d ?_ (.inr rfl) ?_)
    · simp only [reason, d.co]; omega
    · unfold Own at hsv ⊢
      rw [hc] at hsv
      rw [d.co, hs]; simp only [hc]
      have : (sn j s).filter isDeliv = [] := by
        rcases hsv with h | ⟨k', c', h, _⟩
        · exact h.2
        · rw [hr] at h; omega
      exact .inr ⟨k, c, rfl, hk, .inr ⟨m, .inl (by simp [List.filter_cons, isDeliv, this])⟩⟩
  | bcastCase c m k hn hp' hc hr d =>
    rw [hp] at hp'; cases hp'
    obtain ⟨cs, dl, hc, hk⟩ := hc
    have hs : sn j t = [.bcastTo c j m] ++ sn j s := sn_ext d.log (by simp [isCallOf])
    refine h.blk hF d hp (fun k => ⟨rfl, rfl⟩) (.inl rfl) (.inl rfl) (.served d ?_ (.inl rfl) ?_)
    · simp only [reason, d.co]; omega
    · unfold Own at hsv ⊢
      rw [hc] at hsv
      rw [d.co, hs]; simp only [hc]
      have : (sn j s).filter isDeliv = [] := by
        rcases hsv with h | ⟨k', c', h, _⟩
        · exact h.2
        · rw [hr] at h; omega
      exact .inr ⟨k, c, rfl, hk, .inr ⟨m, .inr (by simp [List.filter_cons, isDeliv, this])⟩⟩
  | closeCase c k hn hp' hc hr d =>
    rw [hp] at hp'; cases hp'
    obtain ⟨cs, dl, hc, hk⟩ := hc
    have hs : sn j t = [] ++ sn j s := sn_ext d.log (by simp)
    refine h.blk hF d hp (fun k => ⟨rfl, rfl⟩) (.inl rfl) (.inl rfl) (.served d ?_ (.inl rfl) ?_)
    · simp only [reason, d.co]; omega
    · unfold Own at hsv ⊢
      rw [hc] at hsv
      rw [d.co, hs]; simp only [hc]
      have : (sn j s).filter isDeliv = [] := by
        rcases hsv with h | ⟨k', c', h, _⟩
        · exact h.2
        · rw [hr] at h; omega
      exact .inr ⟨k, c, rfl, hk, .inl this⟩
  | sent c hn hp' hc d =>
    rw [hp] at hp'; cases hp'
    have hq := d.notQ (fun L => rfl)
    have hs : sn j t = [] ++ sn j s := sn_ext d.log (by simp)
    refine h.blk hF d hp (fun k => ⟨rfl, rfl⟩) (.inl rfl) (.inl rfl) (.served d hq (.inr rfl) ?_)
    unfold Own at hsv ⊢
    rw [d.co, hs]
    obtain ⟨dl, h1, _⟩ := hF.bc _ hp
    rcases h1 with ⟨k, m, e⟩ | ⟨m, e⟩ <;> simp only [e, id, List.nil_append] at hsv ⊢ <;> exact hsv
  | grant m rd hn hr d =>
    have hq := d.notQ (fun L => rfl)
    have hs : sn j t = [.grant m j rd] ++ sn j s := sn_ext d.log (by simp [isCallOf])
    have hpl := hL.pl _ _ rfl hn
    simp only [place, hp, Pc.blk.injEq] at hpl
    rcases hpl with ⟨e1, ⟨dl, hc⟩, e3⟩ | ⟨e1, ⟨dl, hc⟩, e3⟩ | ⟨e1, ⟨v, dl, hc⟩, e3⟩
    · subst e1; rw [e3] at hr; subst hr
      refine h.blk hF d hp (fun k => ⟨rfl, rfl⟩) (.inl rfl) (.inl rfl) (.served d hq (.inl rfl) ?_)
      unfold Own; rw [d.co, hs]; simp [hc]
    · subst e1; rw [e3] at hr; subst hr
      refine h.blk hF d hp (fun k => ⟨rfl, rfl⟩) (.inl rfl) (.inl rfl) (.served d hq (.inl rfl) ?_)
      unfold Own; rw [d.co, hs]; simp [hc]
    · subst e1; rw [e3] at hr; subst hr
      refine h.blk hF d hp (fun k => ⟨rfl, rfl⟩) (.inl rfl) (.inl rfl) (.served d hq (.inl rfl) ?_)
      unfold Own at hsv ⊢; rw [d.co, hs]; simp only [hc, id] at hsv ⊢
      exact ⟨List.mem_append.mpr (.inr hsv.1), hsv.2.1.mono d.log (by simp [isCallOf]) d.clk (by rw [d.co]; rfl), .inr (After.now hsv.1)⟩
  | wake L now hn hLL d =>
    have hq := d.notQ (fun L => rfl)
    have hs : sn j t = [.wake L j] ++ sn j s := sn_ext d.log (by simp [isCallOf])
    have hpl := hL.pl _ _ rfl hn
    have hru : (!now) = true ∨ now = true := by cases now <;> simp
    rcases hLL with ⟨w, rfl⟩ | ⟨v, rfl⟩ | ⟨w, rfl⟩ | ⟨w, rfl⟩
    · simp only [place, hp, Pc.blk.injEq] at hpl
      obtain ⟨e1, dl, hc⟩ := hpl; subst e1
      refine h.blk hF d hp (fun k => ⟨rfl, rfl⟩) (.inl rfl) (.inl rfl) (.served d hq hru ?_)
      unfold Own; rw [d.co, hs]; simp [hc]
    · simp only [place, hp, Pc.blk.injEq] at hpl
      obtain ⟨e1, m, dl, hc⟩ := hpl; subst e1
      refine h.blk hF d hp (fun k => ⟨rfl, rfl⟩) (.inl rfl) (.inl rfl) (.served d hq hru ?_)
      unfold Own at hsv ⊢; rw [d.co, hs]; simp only [hc, id] at hsv ⊢
      exact ⟨List.mem_append.mpr (.inr hsv.1), .inr (After.now hsv.1)⟩
    · simp only [place, hp, Pc.blk.injEq] at hpl
      obtain ⟨e1, dl, hc⟩ := hpl; subst e1
      refine h.blk hF d hp (fun k => ⟨rfl, rfl⟩) (.inl rfl) (.inl rfl) (.served d hq hru ?_)
      unfold Own; rw [d.co, hs]; simp [hc]
    · simp only [place, hp, Pc.blk.injEq] at hpl
      obtain ⟨e1, dl, hc⟩ := hpl; subst e1
      refine h.blk hF d hp (fun k => ⟨rfl, rfl⟩) (.inl rfl) (.inl rfl) (.served d hq hru ?_)
      unfold Own; rw [d.co, hs]; simp [hc]
  | resumed i hp' d =>
    have hb' := hF.su.mp hp'; rw [hp] at hb'; cases hb'
    have hs : sn j t = [.resume i j] ++ sn j s := sn_ext d.log (by simp [isCallOf])
    refine h.blk hF d hp (fun k => ⟨rfl, rfl⟩) (.inl rfl) (.inl rfl) (.served d ⟨i, by rw [hs]; simp⟩ (.inr rfl) ?_)
    unfold Own; split <;> first | trivial | (rename_i e _; cases e)
  | ready fd w es hn he hes d =>
    obtain ⟨e1, dl, hc⟩ := (hF.ev fd w).mp hn; rw [hp] at e1; cases e1
    have hs : sn j t = es ++ sn j s := sn_ext d.log (fun e he => by rw [hes e he]; rfl)
    have hin : .ready fd w j ∈ es := by
      cases es with
      | nil => exact absurd rfl he
      | cons e es => rw [hes e List.mem_cons_self]; simp
    refine h.blk hF d hp (fun k => ⟨rfl, rfl⟩) (.inl rfl) (.inl rfl) (.served d ⟨fd, w, dl, by rw [d.co]; exact hc, by rw [hs]; exact List.mem_append.mpr (.inl hin)⟩ (.inr rfl) ?_)
    unfold Own; split <;> first | trivial | (rename_i e _; cases e)
  | sigTo n hn hm d =>
    have hpl := hL.pl _ _ rfl hn
    simp only [place, hp, Pc.blk.injEq] at hpl
    obtain ⟨e1, dl, hc⟩ := hpl; subst e1
    have hs : sn j t = [.sigTo n j] ++ sn j s := sn_ext d.log (by simp [isCallOf])
    have hq := d.inQ (by simp)
    refine h.blk hF d hp (fun k => ⟨rfl, rfl⟩) (.inl rfl) (.inl rfl) (.served d ⟨n, by rw [hs]; simp⟩ (.inr rfl) ?_)
    unfold Own at hsv ⊢; rw [d.co, hs, hq]; simp only [hc] at hsv ⊢
    exact ⟨hsv.1, fun _ => by simp⟩

theorem CoE.mv {j : Nat} {s t : S} (h : CoE j s) (hL : CoL j s) (hF : CoF j s) (m : Mv j s t) : CoE j t := by
  cases e : (s.co j).pc.isBlk with
  | true =>
    cases hp : (s.co j).pc with
    | blk b => exact h.blk_mv hL hF hp m
    | _ => rw [hp] at e; simp [Pc.isBlk] at e
  | false =>
    obtain ⟨es, d⟩ := m.idle hL hF e
    refine h.idle d e (fun hp => h.ww_mv hL hF m ?_)
    rcases d.co with e | ⟨e, _⟩ <;> rw [e] at hp <;> exact hp

theorem CoE.mvs {j : Nat} {s t : S} (h : CoE j s) (hL : CoL j s) (hF : CoF j s) (m : Mvs j s t) : CoE j t := by
  induction m with
  | refl => exact h
  | head a _ ih => exact ih (h.mv hL hF a) (hL.mv a) (hF.mv a)

end Neco.Rt
