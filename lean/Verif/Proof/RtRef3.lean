import Verif.Proof.RtRef2
/-!
# Reference counts agree with the references of the program
-/
namespace Neco.Rt
open Neco.Err

theorem step_pending {ok} {s s' : S} {a : Act} (r : Reach ok s) (hs : step s a = some s') {j : Nat} {c : Call} (h : pending j s'.log = some c) :
    pending j s.log = some c ∨ (a = .call c ∧ s.sco.cur = some j) := by
  have r' : Reach any s' := .step (reach_toAny r) a trivial hs
  obtain ⟨h1, h2⟩ := (pending_call r').mp h
  have hw := reach_scoWF r
  have keep : (s'.co j).call = (s.co j).call → pending j s.log = some c := fun e => (pending_call r).mpr ⟨by rw [← e]; exact h1, h2⟩
  rcases step_stat hw hs j with ⟨h3, h4⟩ | ⟨cl, ha, hc, hp, h3⟩ | ⟨k, g, ha, hi', hj, h3⟩ | ⟨x, ha, hc, hp, h3⟩ | ⟨x, q, ha, hc, hp, hq, h3⟩ | ⟨x, y, ha, hc, hp, h3⟩
  · exact .inl (keep (stat_call h3))
  · right
    have := stat_call h3
    rw [callStat_call, h1] at this
    subst this; exact ⟨ha, hc⟩
  · rw [h3, (newCo_pc s k g).2] at h1; exact absurd h1.symm h2
  · have := stat_call h3; rw [h1] at this; exact absurd this h2
  · left; refine keep ?_; rw [stat_call h3]
  · left; refine keep ?_; rw [stat_call h3]

theorem step_dying {s s' : S} {a : Act} (hs : step s a = some s') {j : Nat} (h : dying j s'.log = false) : dying j s.log = false := by
  obtain ⟨es, e⟩ := step_suffix hs
  rw [e, dying_append, Bool.or_eq_false_iff] at h; exact h.2

theorem step_inUse {ok} {s s' : S} {a : Act} (r : Reach ok s) (hs : step s a = some s') {k : Nat} (h : Busy k s'.log) :
    Busy k s.log ∨ ∃ i c, a = .call c ∧ s.sco.cur = some i ∧ k ∈ uses c := by
  obtain ⟨j, c, h1, h2, h3⟩ := h
  rcases step_pending r hs h1 with h1 | ⟨ha, hc⟩
  · exact .inl ⟨j, c, h1, h2, step_dying hs h3⟩
  · exact .inr ⟨j, c, ha, hc, h2⟩

/-- a coroutine that waits has not been terminated -/
theorem blk_alive {ok} {s : S} (r : Reach ok s) (hf : s.fault = false) {j : Nat} (h : (s.co j).pc.exiting = false) : dying j s.log = false := by
  cases hd : dying j s.log with
  | false => rfl
  | true =>
    have := (reach_invDy r).dy hf j (.inl (by rw [show rl s = s.log.filter Ev.rare from rfl, dying_rl]; exact hd))
    rw [h] at this; cases this.1

structure InvRf (s : S) : Prop where
  rc : ∀ k ch, s.chan k = some ch → 0 ≤ ch.rc ∧ ((∃ i, (s.co i).gen = some k) → ch.rc = refs k s.log) ∧ ((∀ i, (s.co i).gen ≠ some k) → ch.rc + 1 = refs k s.log)
  no : ∀ k, s.chan k = none → refs k s.log = 0 ∧ ∀ i, (s.co i).gen ≠ some k
  us : ∀ k, Busy k s.log → 0 < refs k s.log

theorem InvRf.chan {s : S} (h : InvRf s) {k : Nat} (hk : 0 < refs k s.log) : ∃ ch, s.chan k = some ch := by
  cases e : s.chan k with
  | some ch => exact ⟨ch, rfl⟩
  | none => have := (h.no k e).1; omega

theorem InvRf.genChan {s : S} (h : InvRf s) {i k : Nat} (hk : (s.co i).gen = some k) : ∃ ch, s.chan k = some ch := by
  cases e : s.chan k with
  | some ch => exact ⟨ch, rfl⟩
  | none => exact absurd hk ((h.no k e).2 i)

/-- nobody is in the queue of a channel nobody uses -/
theorem queue_nil {ok} {s : S} (r : Reach ok s) (hf : s.fault = false) {k : Nat} (h : ¬ Busy k s.log) (hg : ∀ i, (s.co i).gen = some k → (s.co i).pc ≠ .blk .send) :
    s.lists (.chanQ k) = [] := by
  cases e : s.lists (.chanQ k) with
  | nil => rfl
  | cons n q =>
    exfalso
    have hp := (reach_invL r).pl (.chanQ k) n (by rw [e]; simp)
    have alive : ∀ j b, (s.co j).pc = .blk b → dying j s.log = false := fun j b hb => blk_alive r hf (by rw [hb]; rfl)
    cases n with
    | co j =>
      simp only [place, Node.owner] at hp
      rcases hp with ⟨h1, h2⟩ | ⟨h1, dl, h2⟩
      · unfold sendOf at h2
        split at h2
        · rename_i c m dl hc
          cases h2
          exact h ⟨j, _, (pending_call r).mpr ⟨hc, by simp⟩, by simp [uses], alive j _ h1⟩
        · exact hg j h2 h1
        · cases h2
      · exact h ⟨j, _, (pending_call r).mpr ⟨h2, by simp⟩, by simp [uses], alive j _ h1⟩
    | case j idx =>
      simp only [place, Node.owner] at hp
      obtain ⟨h1, cs, dl, h2, h3⟩ := hp
      exact h ⟨j, _, (pending_call r).mpr ⟨h2, by simp⟩, by simpa [uses] using List.mem_of_getElem? h3, alive j _ h1⟩

theorem nchan_makers {ok} {s : S} (r : Reach ok s) : s.nchan = (makers s.log).length := by rw [makers_made]; exact (reach_invK2 r).n

theorem InvRf.step {ok} {s s' : S} {a : Act} (h : InvRf s) (r : Reach ok s) (hl : Legal s a) (hs : Rt.step s a = some s') (hf : s'.fault = false) : InvRf s' := by
  have hgen := step_gen r hs
  have hfresh := (reach_invC r).fresh s.nchan (Nat.le_refl _)
  have hnone := h.no s.nchan hfresh
  -- uses
  have hus : (∀ k, (∀ i, a = .call (.chRelease k) → s.sco.cur = some i → refs k s.log ≠ 1) → refs k s.log ≤ refs k s'.log ∨ 1 < refs k s.log ∧ refs k s'.log = refs k s.log - 1) →
      (∀ k i c, a = .call c → s.sco.cur = some i → k ∈ uses c → refs k s'.log = refs k s.log) → ∀ k, Busy k s'.log → 0 < refs k s'.log := by
    intro h1 h2 k hk
    rcases step_inUse r hs hk with hu | ⟨i, c, ha, hc, hu⟩
    · have h0 := h.us k hu
      have : ∀ i, a = .call (.chRelease k) → s.sco.cur = some i → refs k s.log ≠ 1 := by
        intro i ha hc e
        exact ((hl i hc).1 _ ha).2.1 k rfl e hu
      rcases h1 k this with h3 | h3 <;> omega
    · rw [h2 k i c ha hc hu]
      refine ((hl i hc).1 c ha).1 k ?_
      unfold names; split
      · simp [uses] at hu
      · simp [uses] at hu
      · exact hu
  rcases step_rc hs with ⟨hrc, hca, hpc⟩ | ⟨i, cap, hc, ha, hch⟩ | ⟨i, hc, ha, hch⟩ | ⟨i, c, hc, ha, he⟩ | ⟨i, c, hc, ha, he⟩ | ⟨i, x, y, hc, ha, hp, he⟩
  · -- nothing changes
    have hr : ∀ k, refs k s'.log = refs k s.log := by
      intro k
      by_cases hx : ∃ c, a = .call c
      · obtain ⟨c, rfl⟩ := hx
        obtain ⟨i, hc, _⟩ := step_call hs
        rw [refs_call hs hc]
        obtain ⟨n1, n2, n3, n4⟩ := hca i c rfl hc
        cases c <;> first | rfl | exact absurd rfl (n1 _) | exact absurd rfl n2 | exact absurd rfl (n3 _) | exact absurd rfl (n4 _)
      · exact refs_quiet hs (fun c e => hx ⟨c, e⟩) k
    have hg : ∀ j, (s'.co j).gen = (s.co j).gen := by
      intro j
      rcases hgen j with h1 | ⟨ha, _⟩ | ⟨ha, hc, ⟨x, y, hp⟩, _⟩
      · exact h1
      · subst ha
        obtain ⟨i, hc, _⟩ := step_call hs
        exact absurd rfl (hca i _ rfl hc).2.1
      · exact absurd hp (hpc j x y ha hc)
    refine ⟨fun k ch e => ?_, fun k e => ?_, hus (fun k _ => .inl (by rw [hr k]; exact Int.le_refl _)) (fun k _ _ _ _ _ => hr k)⟩
    · have := hrc k
      rw [e] at this
      cases e0 : s.chan k with
      | none => rw [e0] at this; cases this
      | some ch0 =>
        rw [e0] at this; simp at this
        rw [hr k, this]; simp only [hg]; exact h.rc k ch0 e0
    · have := hrc k
      rw [e] at this
      cases e0 : s.chan k with
      | none => rw [hr k]; simp only [hg]; exact h.no k e0
      | some ch0 => rw [e0] at this; cases this
  · -- a new channel
    subst ha
    have hr : ∀ k, refs k s'.log = if k = s.nchan then refs k s.log + 1 else refs k s.log := by
      intro k
      rw [refs_call hs hc]; simp only [refs]; rw [← nchan_makers r]
      by_cases e : k = s.nchan
      · subst e; simp
      · rw [if_neg (fun x => e x.symm), if_neg e]
    have hg : ∀ j, (s'.co j).gen = (s.co j).gen := by
      intro j
      rcases hgen j with h1 | ⟨ha, _⟩ | ⟨ha, _⟩
      · exact h1
      · cases ha
      · cases ha
    refine ⟨fun k ch e => ?_, fun k e => ?_, hus (fun k _ => .inl (by rw [hr k]; split <;> omega)) (fun k i c ha _ hu => by cases ha; simp [uses] at hu)⟩
    · rw [hch] at e; rw [hr k]; simp only [hg]
      dsimp only at e
      split at e
      · rename_i hk; subst hk; cases e
        rw [if_pos rfl, hnone.1]
        exact ⟨by simp, fun ⟨i, hi⟩ => absurd hi (hnone.2 i), fun _ => rfl⟩
      · rename_i hk; rw [if_neg hk]; exact h.rc k ch e
    · rw [hch] at e; rw [hr k]; simp only [hg]
      dsimp only at e
      split at e
      · cases e
      · rename_i hk; rw [if_neg hk]; exact h.no k e
  · -- a new generator
    subst ha
    have hr : ∀ k, refs k s'.log = if k = s.nchan then refs k s.log + 1 else refs k s.log := by
      intro k
      rw [refs_call hs hc]; simp only [refs]; rw [← nchan_makers r]
      by_cases e : k = s.nchan
      · subst e; simp
      · rw [if_neg (fun x => e x.symm), if_neg e]
    have hnew : (s'.co (s.sco.nextId + 1)).gen = some s.nchan := by
      obtain ⟨k, hc, hu, _, e⟩ := step_call hs
      have : s'.co (s.sco.nextId + 1) = newCo s k (some s.nchan) := by rw [e]; exact if_pos rfl
      rw [this]; unfold newCo; split <;> rfl
    have hg : ∀ j k, k ≠ s.nchan → ((s'.co j).gen = some k ↔ (s.co j).gen = some k) := by
      intro j k hk
      rcases hgen j with h1 | ⟨_, _, h1, h2⟩ | ⟨ha, _⟩
      · rw [h1]
      · rw [h1, h2]; simp; exact fun e => hk e.symm
      · cases ha
    refine ⟨fun k ch e => ?_, fun k e => ?_, hus (fun k _ => .inl (by rw [hr k]; split <;> omega)) (fun k i c ha _ hu => by cases ha; simp [uses] at hu)⟩
    · rw [hch] at e; rw [hr k]
      dsimp only at e
      split at e
      · rename_i hk; subst hk; cases e
        rw [if_pos rfl, hnone.1]
        exact ⟨by simp, fun _ => rfl, fun hx => absurd hnew (hx _)⟩
      · rename_i hk; rw [if_neg hk]
        obtain ⟨h1, h2, h3⟩ := h.rc k ch e
        exact ⟨h1, fun ⟨i, hi⟩ => h2 ⟨i, (hg i k hk).mp hi⟩, fun hx => h3 (fun i hi => hx i ((hg i k hk).mpr hi))⟩
    · rw [hch] at e; rw [hr k]
      dsimp only at e
      split at e
      · cases e
      · rename_i hk; rw [if_neg hk]
        obtain ⟨h1, h2⟩ := h.no k e
        exact ⟨h1, fun i hi => h2 i ((hg i k hk).mp hi)⟩
  · -- retain
    subst ha
    have hr : ∀ k, refs k s'.log = if k = c then refs k s.log + 1 else refs k s.log := by
      intro k
      rw [refs_call hs hc]; simp only [refs]
      by_cases e : k = c
      · subst e; simp
      · rw [if_neg (fun x => e x.symm), if_neg e]
    have hg : ∀ j, (s'.co j).gen = (s.co j).gen := by
      intro j
      rcases hgen j with h1 | ⟨ha, _⟩ | ⟨ha, _⟩
      · exact h1
      · cases ha
      · cases ha
    have hch : ∃ ch, s.chan c = some ch ∧ s'.chan = fun k => if k = c then some { ch with rc := ch.rc + 1 } else s.chan k := by
      simp only [doCall] at he
      split at he
      · subst he; cases hf
      · rename_i ch e; exact ⟨ch, e, by rw [he]; rfl⟩
    obtain ⟨ch0, hc0, hch⟩ := hch
    refine ⟨fun k ch e => ?_, fun k e => ?_, hus (fun k _ => .inl (by rw [hr k]; split <;> omega)) (fun k i c ha _ hu => by cases ha; simp [uses] at hu)⟩
    · rw [hch] at e; rw [hr k]; simp only [hg]
      dsimp only at e
      split at e
      · rename_i hk; subst hk; cases e
        rw [if_pos rfl]
        obtain ⟨h1, h2, h3⟩ := h.rc k ch0 hc0
        exact ⟨by dsimp only; omega, fun hx => by have := h2 hx; dsimp only; omega, fun hx => by have := h3 hx; dsimp only; omega⟩
      · rename_i hk; rw [if_neg hk]; exact h.rc k ch e
    · rw [hch] at e; rw [hr k]; simp only [hg]
      dsimp only at e
      split at e
      · cases e
      · rename_i hk; rw [if_neg hk]; exact h.no k e
  · -- release
    subst ha
    have hr : ∀ k, refs k s'.log = if k = c then refs k s.log - 1 else refs k s.log := by
      intro k
      rw [refs_call hs hc]; simp only [refs]
      by_cases e : k = c
      · subst e; simp
      · rw [if_neg (fun x => e x.symm), if_neg e]
    have hg : ∀ j, (s'.co j).gen = (s.co j).gen := by
      intro j
      rcases hgen j with h1 | ⟨ha, _⟩ | ⟨ha, _⟩
      · exact h1
      · cases ha
      · cases ha
    have hpos : 0 < refs c s.log := ((hl i hc).1 _ rfl).1 c (by simp [names])
    obtain ⟨ch0, hc0⟩ := h.chan hpos
    obtain ⟨h1, h2, h3⟩ := h.rc c ch0 hc0
    have hch : s'.chan = fun k => if k = c then (if ch0.rc = 0 then none else some { ch0 with rc := ch0.rc - 1 }) else s.chan k := by
      rw [he]; simp only [doCall, retv_chan]
      unfold chanRelease
      rw [show (callSt s i (.chRelease c)).chan c = some ch0 from hc0]
      dsimp only
      by_cases e : ch0.rc = 0
      · rw [if_pos (by omega), if_pos e]; rfl
      · rw [if_neg (by omega), if_neg e]; rfl
    refine ⟨fun k ch e => ?_, fun k e => ?_, hus (fun k hk => ?_) (fun k i c ha _ hu => by cases ha; simp [uses] at hu)⟩
    · rw [hch] at e; rw [hr k]; simp only [hg]
      dsimp only at e
      split at e
      · rename_i hk; subst hk
        split at e
        · cases e
        cases e
        rw [if_pos rfl]
        exact ⟨by dsimp only; omega, fun hx => by have := h2 hx; dsimp only; omega, fun hx => by have := h3 hx; dsimp only; omega⟩
      · rename_i hk; rw [if_neg hk]; exact h.rc k ch e
    · rw [hch] at e; rw [hr k]; simp only [hg]
      dsimp only at e
      split at e
      · rename_i hk; subst hk
        split at e
        · rename_i h0
          rw [if_pos rfl]
          have hno : ∀ i, (s.co i).gen ≠ some k := fun i hi => by have := h2 ⟨i, hi⟩; omega
          exact ⟨by have := h3 hno; omega, hno⟩
        · cases e
      · rename_i hk; rw [if_neg hk]; exact h.no k e
    · rw [hr k]
      by_cases e : k = c
      · subst e
        have := hk i rfl hc
        right; rw [if_pos rfl]; omega
      · left; rw [if_neg e]; omega
  · -- a generator gives up its channel
    subst ha
    have hr : ∀ k, refs k s'.log = refs k s.log := refs_quiet hs (by simp)
    have hgi := reach_rel r i (by rw [hp]; rfl)
    obtain ⟨g, hgi⟩ := Option.ne_none_iff_exists'.mp hgi
    obtain ⟨ch0, hc0⟩ := h.genChan hgi
    obtain ⟨h1, h2, h3⟩ := h.rc g ch0 hc0
    have h2 := h2 ⟨i, hgi⟩
    have hch : s'.chan = fun k => if k = g then (if ch0.rc = 0 then none else some { ch0 with rc := ch0.rc - 1 }) else s.chan k := by
      rw [he]; simp only [doAft, hgi, setPc_chan, upd_chan]
      unfold chanRelease
      rw [hc0]
      dsimp only
      by_cases e : ch0.rc = 0
      · rw [if_pos (by omega), if_pos e]
      · rw [if_neg (by omega), if_neg e]; rfl
    have hi' : (s'.co i).gen = none := by
      rw [he]; simp [doAft, hgi, setPc, upd_co]
    have hg : ∀ j, j ≠ i → (s'.co j).gen = (s.co j).gen := by
      intro j hj
      rcases hgen j with h1 | ⟨ha, _⟩ | ⟨_, hcj, _⟩
      · exact h1
      · cases ha
      · rw [hc] at hcj; cases hcj; exact absurd rfl hj
    have hno : ∀ j, (s'.co j).gen ≠ some g := by
      intro j hj
      by_cases e : j = i
      · subst e; rw [hi'] at hj; cases hj
      · rw [hg j e] at hj; exact e (gen_inj r hj hgi)
    have hiff : ∀ j k, k ≠ g → ((s'.co j).gen = some k ↔ (s.co j).gen = some k) := by
      intro j k hk
      by_cases e : j = i
      · subst e; rw [hi', hgi]; simp; exact fun e => hk e.symm
      · rw [hg j e]
    refine ⟨fun k ch e => ?_, fun k e => ?_, hus (fun k _ => .inl (by rw [hr k]; exact Int.le_refl _)) (fun k _ _ _ _ _ => hr k)⟩
    · rw [hch] at e; rw [hr k]
      dsimp only at e
      split at e
      · rename_i hk; subst hk
        split at e
        · cases e
        cases e
        exact ⟨by dsimp only; omega, fun ⟨j, hj⟩ => absurd hj (hno j), fun _ => by dsimp only; omega⟩
      · rename_i hk
        obtain ⟨g1, g2, g3⟩ := h.rc k ch e
        exact ⟨g1, fun ⟨i, hi⟩ => g2 ⟨i, (hiff i k hk).mp hi⟩, fun hx => g3 (fun i hi => hx i ((hiff i k hk).mpr hi))⟩
    · rw [hch] at e; rw [hr k]
      dsimp only at e
      split at e
      · rename_i hk; subst hk
        split at e
        · exact ⟨by omega, hno⟩
        · cases e
      · rename_i hk
        obtain ⟨g1, g2⟩ := h.no k e
        exact ⟨g1, fun i hi => g2 i ((hiff i k hk).mp hi)⟩

end Neco.Rt
