import Verif.Proof.RtEvid
/-!
# What others do keeps the evidence
-/
namespace Neco.Rt
open Neco.Err

/-- what can happen to a coroutine that is not blocked at a place where it waits for something -/
structure Idle (j : Nat) (s t : S) (es : List Ev) : Prop where
  log : lg j t = es ++ lg j s
  qt : ∀ e ∈ es, e = .wdone j ∨ ∃ k, e = .cancel k j
  co : t.co j = s.co j ∨ (t.co j = { s.co j with canceled := true } ∧ ∃ k, .cancel k j ∈ es)
  clk : s.clock ≤ t.clock
  rs : .co j ∈ t.lists .resumers → .co j ∈ s.lists .resumers
  io : .co j ∈ t.lists .iolist → .co j ∈ s.lists .iolist ∨ (j ∈ s.jobs ∧ .wdone j ∈ es)
  jb : j ∈ t.jobs → j ∈ s.jobs

theorem jobs_of_count {l m : List Nat} {j : Nat} (h : m.count j = l.count j) : j ∈ m ↔ j ∈ l := by
  rw [← List.count_pos_iff, ← List.count_pos_iff, h]

theorem Idle.of_dlt {j : Nat} {f : Co → Co} {es : List Ev} {gone} {up : Bool} {s t : S} (d : Dlt j f es gone false up s t)
    (h1 : ∀ e ∈ es, e = .wdone j ∨ ∃ k, e = .cancel k j)
    (h2 : f (s.co j) = s.co j ∨ (f (s.co j) = { s.co j with canceled := true } ∧ ∃ k, .cancel k j ∈ es)) : Idle j s t es := by
  refine ⟨d.log, h1, ?_, d.clk, ?_, ?_, ?_⟩
  · rw [d.co]; exact h2
  · intro h; rcases (d.mem _ _ rfl).mp h with h | h
    · exact h.1
    · simp at h
  · intro h; rcases (d.mem _ _ rfl).mp h with h | h
    · exact .inl h.1
    · simp at h
  · exact (jobs_of_count d.jb).mp

theorem place_queued {c : Co} {n : Node} {L : LName} (hp : place c n L) (h1 : L ≠ .resumers) (h2 : L ≠ .iolist) : c.pc.isBlk = true := by
  cases e : queued c.pc with
  | false => rcases place_sched hp e with h | h <;> contradiction
  | true => revert e; cases c.pc <;> simp [queued, Pc.isBlk]

theorem Mv.idle {j : Nat} {s t : S} (hL : CoL j s) (hF : CoF j s) (hp : (s.co j).pc.isBlk = false) (m : Mv j s t) : ∃ es, Idle j s t es := by
  have nq : ∀ {n : Node} {L : LName}, n.owner = j → n ∈ s.lists L → L ≠ .resumers → L ≠ .iolist → False := by
    intro n L ho hn h1 h2
    have := place_queued (hL.pl n L ho hn) h1 h2
    rw [hp] at this; simp at this
  cases m with
  | same d => exact ⟨_, .of_dlt d (by simp) (.inl rfl)⟩
  | take c m hn hp' hc d => exact (nq rfl hn (by simp) (by simp)).elim
  | takeCase c m k hn hp' hc hr d => exact (nq rfl hn (by simp) (by simp)).elim
  | bcast c m hn hp' hc d => exact (nq rfl hn (by simp) (by simp)).elim
  | bcastCase c m k hn hp' hc hr d => exact (nq rfl hn (by simp) (by simp)).elim
  | close c hn hp' hc d => exact (nq rfl hn (by simp) (by simp)).elim
  | closeCase c k hn hp' hc hr d => exact (nq rfl hn (by simp) (by simp)).elim
  | skip g hr hg d => exact ⟨_, .of_dlt d (by simp) (.inl rfl)⟩
  | sent c hn hp' hc d => exact (nq rfl hn (by simp) (by simp)).elim
  | grant m rd hn hr d => exact (nq rfl hn (by simp) (by simp)).elim
  | wake L now hn hLL d =>
    exact (nq rfl hn (by rcases hLL with ⟨_, h⟩ | ⟨_, h⟩ | ⟨_, h⟩ | ⟨_, h⟩ <;> simp [h]) (by rcases hLL with ⟨_, h⟩ | ⟨_, h⟩ | ⟨_, h⟩ | ⟨_, h⟩ <;> simp [h])).elim
  | resumed i hp' d => rw [hF.su.mp hp'] at hp; simp [Pc.isBlk] at hp
  | canceled i he d => exact ⟨_, .of_dlt d (fun e he => .inr ⟨i, by simpa using he⟩) (.inr ⟨rfl, i, by simp⟩)⟩
  | fromRes hn d => exact ⟨_, .of_dlt d (by simp) (.inl rfl)⟩
  | fromIo hn d => exact ⟨_, .of_dlt d (by simp) (.inl rfl)⟩
  | ready fd w es hn he hes d => rw [((hF.ev fd w).mp hn).1] at hp; simp [Pc.isBlk] at hp
  | sigTo n hn hm d => exact (nq rfl hn (by simp) (by simp)).elim
  | deadlined hn hd d => have := hF.pb (hF.dq.mp hn).1; rw [hp] at this; simp at this
  | wdone hj co mem pz dl ev jb log clk =>
    rw [leave_nil (fun c _ h => nq rfl h (by simp) (by simp))] at log
    refine ⟨[.wdone j], log, by simp, .inl co, clk, ?_, ?_, ?_⟩
    · intro h; rcases (mem _ _ rfl).mp h with h | h
      · exact h.1
      · simp at h
    · intro h; rcases (mem _ _ rfl).mp h with h | h
      · exact .inl h.1
      · exact .inr ⟨hj, by simp⟩
    · intro h; rw [← List.count_pos_iff] at h ⊢; omega

theorem isCallOf_quiet {j : Nat} {es : List Ev} (h : ∀ e ∈ es, e = .wdone j ∨ ∃ k, e = .cancel k j) : ∀ e ∈ es, isCallOf j e = false :=
  fun e he => by rcases h e he with rfl | ⟨k, rfl⟩ <;> rfl

theorem CoE.idle {j : Nat} {s t : S} {es : List Ev} (h : CoE j s) (d : Idle j s t es) (hp : (s.co j).pc.isBlk = false)
    (hww : (t.co j).pc = .workWait → (t.co j).call = .work ∧ .co j ∉ t.lists .resumers ∧ t.jobs.count j ≤ 1 ∧
    (.co j ∈ t.lists .iolist → j ∉ t.jobs ∧ .wdone j ∈ sn j t) ∧ (j ∈ t.sco.paused → j ∈ t.jobs ∨ .co j ∈ t.lists .iolist) ∧
    (j ∉ t.sco.paused → .wdone j ∈ sn j t ∨ ∃ k, .cancel k j ∈ sn j t)) : CoE j t := by
  have hco : (t.co j).pc = (s.co j).pc ∧ (t.co j).call = (s.co j).call ∧ (t.co j).gen = (s.co j).gen ∧ (t.co j).rdat = (s.co j).rdat ∧
      (t.co j).sav = (s.co j).sav ∧ (t.co j).deadlined = (s.co j).deadlined := by
    rcases d.co with e | ⟨e, _⟩ <;> rw [e] <;> exact ⟨rfl, rfl, rfl, rfl, rfl, rfl⟩
  obtain ⟨h1, h2, h3, h4, h5, h6⟩ := hco
  have hs : sn j t = es ++ sn j s := sn_ext d.log (isCallOf_quiet d.qt)
  have fD : ∀ l, (es ++ l).filter isDeliv = l.filter isDeliv := fun l => by
    rw [List.filter_append, filter_quiet d.qt rfl (fun _ => rfl)]; rfl
  refine ⟨?_, ?_, ?_, ?_, hww, ?_, ?_, ?_, ?_⟩
  · rw [h6, h2]; intro a b; obtain ⟨dl, e1, e2⟩ := h.dd a b; exact ⟨dl, e1, Int.lt_of_lt_of_le e2 d.clk⟩
  · intro hc; rw [d.log]
    rcases d.co with e | ⟨e, k, hk⟩
    · rw [e] at hc; obtain ⟨k, hk⟩ := h.cc hc; exact ⟨k, List.mem_append.mpr (.inr hk)⟩
    · exact ⟨k, List.mem_append.mpr (.inl hk)⟩
  · rw [h2]; intro a b; have := h.st a b
    refine ⟨fun hi => ?_, fun hj => this.2 (d.jb hj)⟩
    rcases d.io hi with hi | hi
    · exact this.1 hi
    · exact this.2 hi.1
  · rw [h1, h2]; intro a; have := h.wt a
    refine ⟨this.1, fun hi => ?_, fun hj => this.2.2.1 (d.jb hj), fun hr => this.2.2.2 (d.rs hr)⟩
    rcases d.io hi with hi | hi
    · exact this.2.1 hi
    · exact this.2.2.1 hi.1
  · rw [h1]; intro v hv; exact (h.rt v hv).mono d.log d.qt d.clk h2 h3 h4
  · rw [h1, h2, hs, fD]; exact h.sg
  · rw [h1, h2]; intro a
    obtain ⟨q, m, dl, e1, e2, e3⟩ := h.cw a
    exact ⟨q, m, dl, e1, by rw [hs]; exact List.mem_append.mpr (.inr e2), fun e => (e3 e).mono d.log (isCallOf_quiet d.qt) d.clk h5⟩
  · rw [h1]; intro b hb; rw [hb] at hp; simp [Pc.isBlk] at hp

/-- the waiting for background work -/
theorem CoE.ww_mv {j : Nat} {s t : S} (h : CoE j s) (hL : CoL j s) (hF : CoF j s) (m : Mv j s t) (hp : (s.co j).pc = .workWait) :
    (t.co j).call = .work ∧ .co j ∉ t.lists .resumers ∧ t.jobs.count j ≤ 1 ∧
    (.co j ∈ t.lists .iolist → j ∉ t.jobs ∧ .wdone j ∈ sn j t) ∧ (j ∈ t.sco.paused → j ∈ t.jobs ∨ .co j ∈ t.lists .iolist) ∧
    (j ∉ t.sco.paused → .wdone j ∈ sn j t ∨ ∃ k, .cancel k j ∈ sn j t) := by
  have hnb : (s.co j).pc.isBlk = false := by rw [hp]; rfl
  have nq : ∀ {n : Node} {L : LName}, n.owner = j → n ∈ s.lists L → L ≠ .resumers → L ≠ .iolist → False := by
    intro n L ho hn h1 h2
    have := place_queued (hL.pl n L ho hn) h1 h2
    rw [hnb] at this; simp at this
  obtain ⟨h1, h2, h3, h4, h5, h6⟩ := h.ww hp
  -- the cases that leave the lists alone or take the coroutine out
  have keep : ∀ {f : Co → Co} {es gone up}, Dlt j f es gone false up s t → (∀ e ∈ es, ∃ k, e = .cancel k j) → (f (s.co j)).call = (s.co j).call →
      (up = false → ∀ L, ¬ gone (.co j) L) → (up = true → .wdone j ∈ sn j s ∨ ∃ k, .cancel k j ∈ es) →
      (t.co j).call = .work ∧ .co j ∉ t.lists .resumers ∧ t.jobs.count j ≤ 1 ∧
      (.co j ∈ t.lists .iolist → j ∉ t.jobs ∧ .wdone j ∈ sn j t) ∧ (j ∈ t.sco.paused → j ∈ t.jobs ∨ .co j ∈ t.lists .iolist) ∧
      (j ∉ t.sco.paused → .wdone j ∈ sn j t ∨ ∃ k, .cancel k j ∈ sn j t) := by
    intro f es gone up d hes hcall hg hup
    have hs : sn j t = es ++ sn j s := sn_ext d.log (fun e he => by obtain ⟨k, rfl⟩ := hes e he; rfl)
    have mm : ∀ L, .co j ∈ t.lists L → .co j ∈ s.lists L := fun L hm => by
      rcases (d.mem _ _ rfl).mp hm with h | h
      · exact h.1
      · simp at h
    refine ⟨by rw [d.co, hcall]; exact h1, fun hm => h2 (mm _ hm), by rw [d.jb]; exact h3, ?_, ?_, ?_⟩
    · intro hm; have := h4 (mm _ hm)
      exact ⟨fun hj => this.1 ((jobs_of_count d.jb).mp hj), by rw [hs]; exact List.mem_append.mpr (.inr this.2)⟩
    · intro hm; have hm := d.pz.mp hm
      rcases h5 hm.1 with h | h
      · exact .inl ((jobs_of_count d.jb).mpr h)
      · exact .inr ((d.mem _ _ rfl).mpr (.inl ⟨h, hg hm.2 _⟩))
    · intro hm; rw [hs]
      have old : (.wdone j ∈ sn j s ∨ ∃ k, .cancel k j ∈ sn j s) → .wdone j ∈ es ++ sn j s ∨ ∃ k, .cancel k j ∈ es ++ sn j s := by
        rintro (h | ⟨k, h⟩)
        · exact .inl (List.mem_append.mpr (.inr h))
        · exact .inr ⟨k, List.mem_append.mpr (.inr h)⟩
      by_cases hm' : j ∈ s.sco.paused
      · cases up with
        | false => exact absurd (d.pz.mpr ⟨hm', rfl⟩) hm
        | true =>
          rcases hup rfl with h | ⟨k, h⟩
          · exact old (.inl h)
          · exact .inr ⟨k, List.mem_append.mpr (.inl h)⟩
      · exact old (h6 hm')
  cases m with
  | same d => exact keep d (by simp) rfl (by simp) (by simp)
  | take c m hn hp' hc d => exact (nq rfl hn (by simp) (by simp)).elim
  | takeCase c m k hn hp' hc hr d => exact (nq rfl hn (by simp) (by simp)).elim
  | bcast c m hn hp' hc d => exact (nq rfl hn (by simp) (by simp)).elim
  | bcastCase c m k hn hp' hc hr d => exact (nq rfl hn (by simp) (by simp)).elim
  | close c hn hp' hc d => exact (nq rfl hn (by simp) (by simp)).elim
  | closeCase c k hn hp' hc hr d => exact (nq rfl hn (by simp) (by simp)).elim
  | skip g hr hg d => exact keep d (by simp) rfl (fun _ L hgo => by obtain ⟨k, e⟩ := hg _ _ hgo; simp at e) (by simp)
  | sent c hn hp' hc d => exact (nq rfl hn (by simp) (by simp)).elim
  | grant m rd hn hr d => exact (nq rfl hn (by simp) (by simp)).elim
  | wake L now hn hLL d =>
    exact (nq rfl hn (by rcases hLL with ⟨_, h⟩ | ⟨_, h⟩ | ⟨_, h⟩ | ⟨_, h⟩ <;> simp [h]) (by rcases hLL with ⟨_, h⟩ | ⟨_, h⟩ | ⟨_, h⟩ | ⟨_, h⟩ <;> simp [h])).elim
  | resumed i hp' d => rw [hF.su.mp hp'] at hnb; simp [Pc.isBlk] at hnb
  | canceled i he d => exact keep d (fun e he => ⟨i, by simpa using he⟩) rfl (by simp) (fun _ => .inr ⟨i, by simp⟩)
  | fromRes hn d => exact (h2 hn).elim
  | fromIo hn d => exact keep d (by simp) rfl (by simp) (fun _ => .inl (h4 hn).2)
  | ready fd w es hn he hes d => rw [((hF.ev fd w).mp hn).1] at hnb; simp [Pc.isBlk] at hnb
  | sigTo n hn hm d => exact (nq rfl hn (by simp) (by simp)).elim
  | deadlined hn hd d => have := hF.pb (hF.dq.mp hn).1; rw [hnb] at this; simp at this
  | wdone hj co mem pz dl ev jb log clk =>
    rw [leave_nil (fun c _ h => nq rfl h (by simp) (by simp))] at log
    have hs : sn j t = [.wdone j] ++ sn j s := sn_ext log (by simp [isCallOf])
    refine ⟨by rw [co]; exact h1, ?_, by omega, ?_, ?_, ?_⟩
    · intro hm; rcases (mem _ _ rfl).mp hm with h | h
      · exact h2 h.1
      · simp at h
    · intro hm; exact ⟨fun hj' => by rw [← List.count_pos_iff] at hj'; omega, by rw [hs]; simp⟩
    · intro _; right; exact (mem _ _ rfl).mpr (.inr ⟨rfl, rfl⟩)
    · intro _; left; rw [hs]; simp

end Neco.Rt
