import Verif.Proof.RtFlag
/-!
# The flags of every coroutine, in every reachable state
-/
namespace Neco.Rt
open Neco.Err

theorem doCall_pool (s : S) (i : Nat) (c : Call) : (doCall s i c).pool = s.pool ∨ (doCall s i c).pool = s.pool.tail := by
  cases c <;> simp only [doCall]
  case start => right; rfl
  case genStart => right; rfl
  case chRetain => left; split <;> simp
  all_goals (left; simp)

theorem afterBlk_pool (s : S) (i : Nat) (b : Blk) : (afterBlk s i b).pool = s.pool := by
  cases b <;> simp only [afterBlk] <;> (repeat' split) <;> simp [selRm]

theorem preBlk_pool' (s : S) (i : Nat) (b : Blk) : (preBlk s i b).pool = s.pool := by
  unfold preBlk noteWithdraw; (repeat' split) <;> rfl

theorem tauCo_pool {s s' : S} {i : Nat} (hs : tauCo s i = some s') :
    s'.pool = s.pool ∨ (∃ a, (s.co i).pc = .go (.fin a) ∧ s'.pool = s.pool ++ [(s.co i, 0)]) := by
  unfold tauCo at hs
  split at hs
  case h_1 => cases hs
  case h_2 => cases hs
  case h_3 => cases hs
  case h_7 a e =>
    cases hs
    cases a with
    | fin x => right; exact ⟨x, e, by simp [doAft, doFin]⟩
    | _ => left; simp only [doAft] <;> (repeat' split) <;> simp
  case h_9 => cases hs; left; simp [afterBlk_pool, preBlk_pool']
  case h_5 => (repeat' split at hs) <;> cases hs <;> simp
  case h_10 => (split at hs) <;> cases hs <;> simp
  case h_11 => (split at hs) <;> cases hs <;> simp
  case h_13 => cases hs; left; unfold doExit; (repeat' split) <;> simp
  all_goals (cases hs; left; simp)

theorem wakeAll_pool' (s : S) (q : List Nat) : (wakeAll s q).pool = s.pool := by
  induction q generalizing s with
  | nil => rfl
  | cons i q ih => simp only [wakeAll]; rw [ih]; rfl

theorem mEvents_pool' (s : S) (q) : (mEvents s q).pool = s.pool := by
  induction q generalizing s with
  | nil => rfl
  | cons i q ih => simp only [mEvents]; rw [ih]; simp [mEvent, wakeAll_pool']

theorem mem_dropWhile {α} {p : α → Bool} {l : List α} {x : α} (h : x ∈ l.dropWhile p) : x ∈ l := by
  induction l with
  | nil => simp at h
  | cons a l ih =>
    rw [List.dropWhile_cons] at h
    split at h
    · exact List.mem_cons_of_mem _ (ih h)
    · exact h

theorem mem_mRc {s : S} {p : Co × Int} (h : p ∈ (mRc s).pool) : ∃ q ∈ s.pool, q.1 = p.1 := by
  simp only [mRc] at h
  have h := mem_dropWhile h
  rw [List.mem_map] at h
  obtain ⟨q, hq, e⟩ := h
  refine ⟨q, hq, ?_⟩
  rw [← e]; split <;> rfl

theorem tauMain_pool {s s' : S} (hs : tauMain s = some s') : ∀ p ∈ s'.pool, ∃ q ∈ s.pool, q.1 = p.1 := by
  have same : s'.pool = s.pool → ∀ p ∈ s'.pool, ∃ q ∈ s.pool, q.1 = p.1 := fun e p hp => ⟨p, e ▸ hp, rfl⟩
  unfold tauMain at hs
  split at hs
  · (repeat' split at hs) <;> cases hs <;> apply same <;> simp [mResume, wakeAll_pool']
  · cases hs; apply same; unfold mIo; split <;> simp [wakeAll_pool']
  · cases hs
  · cases hs; apply same; unfold mSig; dsimp only; (repeat' split) <;> simp [scoResume]
  · cases hs; apply same; simp [mDl, markDl, wakeAll_pool']
  · cases hs; exact fun p hp => mem_mRc hp
  · cases hs; exact same rfl
  · cases hs

/-- where the records in the pool come from -/
theorem step_pool {s s' : S} {a : Act} (hs : step s a = some s') : ∀ p ∈ s'.pool, (∃ q ∈ s.pool, q.1 = p.1) ∨
    (∃ i x, s.sco.cur = some i ∧ (s.co i).pc = .go (.fin x) ∧ p.1 = s.co i) := by
  have same : s'.pool = s.pool → ∀ p ∈ s'.pool, (∃ q ∈ s.pool, q.1 = p.1) ∨
    (∃ i x, s.sco.cur = some i ∧ (s.co i).pc = .go (.fin x) ∧ p.1 = s.co i) := fun e p hp => .inl ⟨p, e ▸ hp, rfl⟩
  unfold step at hs
  split at hs
  · cases hs
  cases a with
  | call c =>
    simp only at hs
    split at hs
    · cases hs
    split at hs <;> cases hs
    rename_i i _ _
    rcases doCall_pool (upd (note s (.call i c)) i (fun k => { k with call := c })) i c with h | h
    · exact same h
    · rw [h]; exact fun p hp => .inl ⟨p, List.mem_of_mem_tail hp, rfl⟩
  | finish =>
    simp only at hs
    split at hs
    · cases hs
    split at hs <;> cases hs
    exact same rfl
  | tau =>
    simp only at hs
    split at hs
    · rename_i i hc
      rcases tauCo_pool hs with h | ⟨x, h1, h2⟩
      · exact same h
      · rw [h2]; intro p hp
        simp only [List.mem_append, List.mem_singleton] at hp
        rcases hp with hp | hp
        · exact .inl ⟨p, hp, rfl⟩
        · exact .inr ⟨i, x, hc, h1, by rw [hp]⟩
    · exact fun p hp => .inl (tauMain_pool hs p hp)
  | submit ok =>
    simp only at hs
    split at hs
    · cases hs
    (repeat' split at hs) <;> cases hs <;> exact same rfl
  | events evs =>
    simp only at hs
    split at hs
    · cases hs
      apply same; dsimp only; split
      · simp [mEvents_pool']
      · rfl
    · cases hs
  | clock t => simp only at hs; split at hs <;> cases hs; exact same rfl
  | signal n => simp only at hs; (repeat' split at hs) <;> cases hs <;> exact same rfl
  | wdone i => simp only at hs; split at hs <;> cases hs; exact same rfl

structure InvF (s : S) : Prop where
  cf : ∀ j, CoF j s
  fresh : ∀ j, s.sco.nextId < j → (s.co j).pc = .user
  pool : ∀ p ∈ s.pool, p.1.paused = false ∧ p.1.suspended = false ∧ p.1.rlocked = false

theorem WF.cur_not_paused {x : Sco} (hw : Sco.WF x) {i : Nat} (h : x.cur = some i) : i ∉ x.paused := by
  have := hw.nodup; simp only [Sco.everybody, h] at this
  intro hm; simp [hm] at this

theorem WF.paused_le {x : Sco} (hw : Sco.WF x) {i : Nat} (h : i ∈ x.paused) : 1 ≤ i ∧ i ≤ x.nextId := by
  have := hw.perm.mem_iff.1 (show i ∈ x.everybody by unfold Sco.everybody; simp [h])
  rw [List.mem_range'_1] at this; omega

theorem Mvs.pc {j : Nat} {s t : S} (h : Mvs j s t) : (t.co j).pc = (s.co j).pc ∧ (t.co j).call = (s.co j).call := by
  induction h with
  | refl => exact ⟨rfl, rfl⟩
  | head a _ ih =>
    rw [ih.1, ih.2]
    cases a
    case wdone co _ _ _ _ _ _ _ => rw [co]; exact ⟨rfl, rfl⟩
    all_goals (rename_i d; rw [d.co]; exact ⟨rfl, rfl⟩)

theorem steps_nextId {x y : Sco} {ops} (h : Sco.Steps x ops y) : x.nextId ≤ y.nextId := by
  induction h with
  | nil => exact Nat.le_refl _
  | snoc h o e ih =>
    refine Nat.le_trans ih ?_
    cases o <;> simp [Sco.step]

theorem step_nextId {s s' : S} {a : Act} (hw : Sco.WF s.sco) (hs : step s a = some s') : s.sco.nextId ≤ s'.sco.nextId := by
  obtain ⟨ops, h⟩ := step_steps hw hs
  exact steps_nextId h

/-- what a start does: the record of the new coroutine and its absence from all queues -/
theorem start_new {s s' : S} {a : Act} (ha : a = .call .start ∨ a = .call .genStart) (hs : step s a = some s') :
    ∃ i g, s.sco.cur = some i ∧ s'.co (s.sco.nextId + 1) = newCo s i g ∧ s'.lists = s.lists ∧ s'.dlq = s.dlq ∧ s'.evw = s.evw ∧ s'.jobs = s.jobs ∧
      s'.sco = s.sco.start ∧ (s'.log = .start (some i) (s.sco.nextId + 1) :: .call i .start :: s.log ∨ s'.log = .start (some i) (s.sco.nextId + 1) :: .call i .genStart :: s.log) ∧ s'.clock = s.clock := by
  unfold step at hs
  split at hs
  · cases hs
  rcases ha with ha | ha <;> subst ha
  · simp only at hs
    split at hs
    · cases hs
    rename_i i hc
    split at hs <;> cases hs
    refine ⟨i, none, hc, ?_, rfl, rfl, rfl, rfl, rfl, .inl rfl, rfl⟩
    simp only [doCall, doStart]
    simp [newCo]
  · simp only at hs
    split at hs
    · cases hs
    rename_i i hc
    split at hs <;> cases hs
    refine ⟨i, some s.nchan, hc, ?_, rfl, rfl, rfl, rfl, rfl, .inr rfl, rfl⟩
    simp only [doCall, doGenStart, doStart]
    simp [newCo]

theorem newCo_pc (s : S) (i : Nat) (g : Option Nat) : (newCo s i g).pc = .user ∧ (newCo s i g).call = .none := by
  unfold newCo; split <;> exact ⟨rfl, rfl⟩

theorem newCo_flags {s : S} (h : ∀ p ∈ s.pool, p.1.paused = false ∧ p.1.suspended = false ∧ p.1.rlocked = false) (i : Nat) (g : Option Nat) :
    (newCo s i g).paused = false ∧ (newCo s i g).suspended = false ∧ (newCo s i g).rlocked = false := by
  unfold newCo; split
  · exact ⟨rfl, rfl, rfl⟩
  · rename_i c x q e
    exact h (c, x) (by rw [e]; simp)

theorem InvF.step {s s' : S} {a : Act} (h : InvF s) (hL : InvL s) (hC : InvC s) (hw : Sco.WF s.sco) (hs : step s a = some s') : InvF s' := by
  have hnx := step_nextId hw hs
  have hself : ∀ i, s.sco.cur = some i → CoF i s' := by
    intro i hc
    have hnp := WF.cur_not_paused hw hc
    have hF := h.cf i
    clear hnx
    unfold Rt.step at hs
    split at hs
    · cases hs
    cases a with
    | call c =>
      simp only [hc] at hs
      split at hs <;> cases hs
      rename_i hpc
      have hcm := hF.calm hnp (by simp [hpc.1, Pc.isBlk])
      refine doCall_cof (s := upd (note s (.call i c)) i (fun k => { k with call := c })) ?_ hc (by simp [upd_co, hpc.1, Pc.isBlk]) hw c (by simp [upd_co])
      exact hcm.trans (by simp [upd_co]) (by simp [upd_co]) (by simp [upd_co]) (by simp) (by simp) (by simp)
    | finish =>
      simp only [hc] at hs
      split at hs <;> cases hs
      rename_i hpc
      exact setPc_calm (hF.calm hnp (by simp [hpc, Pc.isBlk])) rfl
    | tau => simp only [hc] at hs; exact tauCo_cof hF hw hc hs
    | submit ok =>
      simp only [hc] at hs
      split at hs
      · rename_i hpc
        have hcm := hF.calm hnp (by simp [hpc, Pc.isBlk])
        split at hs <;> cases hs
        · refine ⟨?_, ?_, ?_, ?_, ?_, ?_, ?_, ?_, fun _ hb => by simp [setPc_co, Pc.isBlk] at hb⟩
          · simp [setPc_co, hcm.pa]
          · intro _; right; simp [setPc_co]
          · simp [setPc_co, hcm.pa, hcm.dq]
          · intro fd w; simp [setPc_co, hcm.ev fd w]
          · simp [setPc_co, hcm.su]
          · simp [setPc_co]
          · simp [setPc_co, Pc.isBlk]
          · simp [setPc_co, hcm.rl]
        · refine (hcm.trans (t := { s with sco := s.sco.yield }) rfl rfl rfl (by simp) rfl rfl).cof (by simp [hpc, Pc.isBlk])
      · cases hs
    | events evs =>
      simp only at hs
      split at hs
      · rename_i h1; rw [hc] at h1; simp at h1
      · cases hs
    | clock t =>
      simp only at hs; split at hs <;> cases hs
      exact ⟨hF.pb, hF.sp, hF.dq, hF.ev, hF.su, hF.bc, hF.np, hF.rl, hF.cn⟩
    | signal n =>
      simp only at hs; (repeat' split at hs) <;> cases hs <;> exact ⟨hF.pb, hF.sp, hF.dq, hF.ev, hF.su, hF.bc, hF.np, hF.rl, hF.cn⟩
    | wdone k =>
      simp only at hs; split at hs <;> cases hs
      exact ⟨hF.pb, hF.sp, hF.dq, hF.ev, hF.su, hF.bc, hF.np, hF.rl, hF.cn⟩
  have hoth : ∀ j, s.sco.cur ≠ some j → ((a = .call .start ∨ a = .call .genStart) → j ≠ s.sco.nextId + 1) → Mvs j s s' :=
    fun j hj hn => step_other hL hC hs hj hn (h.cf j).evU
  have hnew : (a = .call .start ∨ a = .call .genStart) → CoF (s.sco.nextId + 1) s' ∧ s'.sco.nextId = s.sco.nextId + 1 := by
    intro ha
    obtain ⟨i, g, hc, e1, e2, e3, e4, e5, e6, _, _⟩ := start_new ha hs
    have hn : ∀ k, k = s.sco.nextId + 1 → k ∉ s.sco.paused := fun k hk hm => by have := WF.paused_le hw hm; omega
    have hcm := (h.cf (s.sco.nextId + 1)).calm (hn _ rfl) (by rw [h.fresh _ (Nat.lt_succ_self _)]; rfl)
    obtain ⟨f1, f2, f3⟩ := newCo_flags h.pool i g
    refine ⟨Calm.cof ⟨?_, ?_, ?_, ?_, ?_, ?_⟩ ?_, by rw [e6]; simp⟩
    · rw [e1]; exact f1
    · rw [e1]; exact f2
    · rw [e1]; exact f3
    · rw [e6]; simpa using hcm.sp
    · rw [e3]; exact hcm.dq
    · rw [e4]; exact hcm.ev
    · rw [e1, (newCo_pc s i g).1]; rfl
  refine ⟨?_, ?_, ?_⟩
  · intro j
    by_cases hj : s.sco.cur = some j
    · exact hself j hj
    · by_cases hn : (a = .call .start ∨ a = .call .genStart) ∧ j = s.sco.nextId + 1
      · rw [hn.2]; exact (hnew hn.1).1
      · exact (h.cf j).mvs (hoth j hj (fun ha e => hn ⟨ha, e⟩))
  · intro j hj
    have hj1 : s.sco.cur ≠ some j := fun e => by have := cur_le hw e; omega
    have hn : (a = .call .start ∨ a = .call .genStart) → j ≠ s.sco.nextId + 1 := fun ha => by
      have := (hnew ha).2; omega
    rw [(hoth j hj1 hn).pc.1]; exact h.fresh j (by omega)
  · intro p hp
    rcases step_pool hs p hp with ⟨q, hq, e⟩ | ⟨i, x, hc, hpc, e⟩
    · rw [← e]; exact h.pool q hq
    · have hcm := (h.cf i).calm (WF.cur_not_paused hw hc) (by rw [hpc]; rfl)
      rw [e]; exact ⟨hcm.pa, hcm.su, hcm.rl⟩

theorem reach_invF {ok} {s : S} (h : Reach ok s) : InvF s := by
  induction h with
  | init a e =>
    have hco : ∀ j, ((init a e).co j).pc = .user ∧ ((init a e).co j).paused = false ∧ ((init a e).co j).suspended = false ∧ ((init a e).co j).rlocked = false := by
      intro j; unfold init; dsimp only; split <;> exact ⟨rfl, rfl, rfl, rfl⟩
    refine ⟨fun j => Calm.cof ⟨(hco j).2.1, (hco j).2.2.1, (hco j).2.2.2, ?_, ?_, ?_⟩ (by rw [(hco j).1]; rfl), fun j _ => (hco j).1, ?_⟩
    · simp [init]
    · simp [init]
    · simp [init]
    · simp [init]
  | step h a hok hs ih => exact ih.step (reach_invL h) (reach_invC h) (reach_scoWF h) hs

end Neco.Rt
