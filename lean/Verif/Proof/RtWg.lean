import Verif.Proof.RtLock3
import Verif.Spec.Sync
/-!
# Wait groups
-/
namespace Neco.Rt
open Neco.Err

def Call.wgCall : Call → Bool
  | .wgAdd _ _ | .wgDone _ => true
  | _ => false

theorem wgCount_cons {w : Nat} {e : Ev} {l : List Ev} (h : ∀ i c, e = .call i c → c.wgCall = false) : wgCount w (e :: l) = wgCount w l := by
  cases e <;> try rfl
  rename_i i c
  have := h i c rfl
  cases c <;> first | (simp [Call.wgCall] at this; done) | rfl

theorem wgCount_append {w : Nat} {a l : List Ev} (h : ∀ i c, .call i c ∈ a → c.wgCall = false) : wgCount w (a ++ l) = wgCount w l := by
  induction a with
  | nil => rfl
  | cons e a ih =>
    rw [List.cons_append, wgCount_cons (fun i c he => h i c (by rw [he]; simp))]
    exact ih (fun i c he => h i c (by simp [he]))

theorem wgCount_adds {ks : List Kind} {s t : S} (h : Adds ks s t) (hk : Kind.call ∉ ks) (w : Nat) : wgCount w t.log = wgCount w s.log := by
  obtain ⟨es, h1, h2⟩ := h
  rw [h1]
  exact wgCount_append (fun i c he => absurd (h2 _ he) (by simpa [Ev.kind] using hk))

theorem wgCount_nonneg (w : Nat) (l : List Ev) : 0 ≤ wgCount w l := by
  induction l with
  | nil => simp [wgCount]
  | cons e l ih =>
    unfold wgCount
    split <;> first | exact ih | skip
    · cases ‹_ :: _ = _›
    · rename_i h; cases h; split <;> omega
    · rename_i h; cases h; split <;> omega
    · rename_i h; cases h; exact ih

theorem doCall_wg (s : S) (i : Nat) (c : Call) (h : c.wgCall = false) : (doCall s i c).wg = s.wg := by
  cases c <;> first | (simp [Call.wgCall] at h; done) | skip
  case chRetain => simp only [doCall]; split <;> simp
  all_goals first | rfl | simp [doCall] | skip

theorem afterBlk_wg (s : S) (i : Nat) (b : Blk) : (afterBlk s i b).wg = s.wg := by
  cases b <;> simp only [afterBlk] <;> (repeat' split) <;> simp

theorem tauCo_wg {s s' : S} {i : Nat} (hs : tauCo s i = some s') : s'.wg = s.wg := by
  unfold tauCo at hs
  split at hs
  all_goals (repeat' split at hs) <;> cases hs <;> first | rfl | simp [afterBlk_wg]

theorem tauMain_wg {s s' : S} (h : tauMain s = some s') : s'.wg = s.wg := by
  unfold tauMain at h
  (repeat' split at h) <;> cases h <;> first | rfl | simp

/-- when a step can change the counter of a wait group -/
theorem step_wg {s s' : S} {a : Act} (hs : step s a = some s') : (s'.wg = s.wg ∧ ∀ w, wgCount w s'.log = wgCount w s.log) ∨
    (∃ i w d, a = .call (.wgAdd w d) ∧ s.sco.cur = some i ∧ s' = wgAdd (callSt s i (.wgAdd w d)) i w d) ∨
    (∃ i w, a = .call (.wgDone w) ∧ s.sco.cur = some i ∧ s' = wgDone (callSt s i (.wgDone w)) i w) := by
  have hs0 := hs
  have quiet : s'.wg = s.wg → Kind.call ∉ stepKinds s a → s'.wg = s.wg ∧ ∀ w, wgCount w s'.log = wgCount w s.log := fun h1 h2 => ⟨h1, wgCount_adds (step_adds hs0) h2⟩
  unfold step at hs
  split at hs
  · cases hs
  cases a with
  | call c =>
    obtain ⟨i, h1, h2, h3, h4⟩ := step_call hs0
    cases hm : c.wgCall with
    | true =>
      cases c <;> simp [Call.wgCall] at hm
      · rename_i w d; exact .inr (.inl ⟨i, w, d, rfl, h1, h4⟩)
      · rename_i w; exact .inr (.inr ⟨i, w, rfl, h1, h4⟩)
    | false =>
      refine .inl ⟨by rw [h4, doCall_wg _ _ _ hm]; rfl, fun w => ?_⟩
      obtain ⟨fs, e1, e2⟩ := call_log hs0 h1
      rw [e1, show fs ++ Ev.call i c :: s.log = (fs ++ [Ev.call i c]) ++ s.log by simp]
      refine wgCount_append (fun j c' h => ?_)
      simp only [List.mem_append, List.mem_singleton] at h
      rcases h with h | h
      · have := e2 _ h
        exfalso; simp only [Ev.kind] at this; cases c <;> simp [callKinds] at this
      · cases h; exact hm
  | finish => simp only at hs; (repeat' split at hs) <;> cases hs <;> exact .inl (quiet rfl (by simp [stepKinds]))
  | tau =>
    simp only at hs
    split at hs
    · rename_i i hc
      refine .inl (quiet (tauCo_wg hs) ?_)
      simp only [stepKinds, hc]; unfold pcKinds; split <;> simp
    · rename_i hc
      refine .inl (quiet (tauMain_wg hs) ?_)
      simp only [stepKinds, hc]; unfold mainKinds; split <;> simp
  | submit ok => simp only at hs; (repeat' split at hs) <;> cases hs <;> exact .inl (quiet rfl (by simp [stepKinds]))
  | events evs =>
    simp only at hs; split at hs <;> cases hs
    refine .inl (quiet ?_ (by simp [stepKinds])); show (if s.nevwaiters > 0 then mEvents s evs else s).wg = _; split <;> simp
  | clock t => simp only at hs; split at hs <;> cases hs; exact .inl (quiet rfl (by simp [stepKinds]))
  | signal n => simp only at hs; (repeat' split at hs) <;> cases hs <;> exact .inl (quiet rfl (by simp [stepKinds]))
  | wdone i => simp only at hs; split at hs <;> cases hs; exact .inl (quiet rfl (by simp [stepKinds]))

theorem wgAdd_wg (s : S) (i w : Nat) (d : Int) (hf : (wgAdd s i w d).fault = false) (k : Nat) :
    (wgAdd s i w d).wg k = (if w = k ∧ 0 ≤ s.wg k + d then s.wg k + d else s.wg k) ∧ (wgAdd s i w d).log = s.log := by
  unfold wgAdd at hf ⊢
  dsimp only at hf ⊢
  (repeat' split at hf)
  · cases hf
  · rename_i h1 h2
    rw [if_neg h1, if_pos h2]
    refine ⟨?_, by simp⟩
    rw [retv_wg]
    split
    · rename_i h; obtain ⟨rfl, h⟩ := h; omega
    · rfl
  · rename_i h1 h2
    rw [if_neg h1, if_neg h2]
    refine ⟨?_, by simp [setWg]⟩
    rw [retv_wg]
    by_cases hk : w = k
    · subst hk; simp only [setWg, if_true]; rw [if_pos ⟨trivial, by omega⟩]
    · rw [if_neg (fun h => hk h.1)]; simp [setWg, Ne.symm hk]

theorem wgDone_wg (s : S) (i w : Nat) (k : Nat) : (wgDone s i w).wg k = (if w = k ∧ s.wg k ≠ 0 then s.wg k - 1 else s.wg k) := by
  have e : (wgDone s i w).wg = if s.wg w = 0 then s.wg else (setWg s w (s.wg w - 1)).wg := by
    unfold wgDone; dsimp only; (repeat' split) <;> simp
  rw [e]
  by_cases h0 : s.wg w = 0
  · rw [if_pos h0, if_neg]; rintro ⟨rfl, h⟩; exact h h0
  · rw [if_neg h0]
    by_cases hk : w = k
    · subst hk; simp [setWg, h0]
    · rw [if_neg (fun h => hk h.1)]; simp [setWg, Ne.symm hk]

/-- the counter is what the history says -/
def InvWc (s : S) : Prop := s.fault = false → ∀ w, s.wg w = wgCount w s.log

theorem wgDone_count {s : S} {i w : Nat} {k : Nat} (h : s.wg k = wgCount k s.log) : (wgDone (callSt s i (.wgDone w)) i w).wg k = wgCount k (wgDone (callSt s i (.wgDone w)) i w).log := by
  obtain ⟨es, h1, h2⟩ := wgDone_log (callSt s i (.wgDone w)) i w
  rw [h1, wgCount_append (fun j c hc => by obtain ⟨_, h⟩ := h2 _ hc; cases h), wgDone_wg]
  show (if w = k ∧ s.wg k ≠ 0 then s.wg k - 1 else s.wg k) = wgCount k (.call i (.wgDone w) :: s.log)
  simp only [wgCount, h]

theorem InvWc.step {s s' : S} {a : Act} (h : InvWc s) (hs : Rt.step s a = some s') : InvWc s' := by
  intro hf w
  have h0 := h (step_nofault hs)
  rcases step_wg hs with ⟨h1, h2⟩ | ⟨i, k, d, rfl, hc, rfl⟩ | ⟨i, k, rfl, hc, rfl⟩
  · rw [h1, h2]; exact h0 w
  · obtain ⟨h1, h2⟩ := wgAdd_wg _ _ _ _ hf w
    rw [h1, h2]
    show (if k = w ∧ 0 ≤ s.wg w + d then s.wg w + d else s.wg w) = wgCount w (.call i (.wgAdd k d) :: s.log)
    simp only [wgCount, h0 w]
  · exact wgDone_count (h0 w)

theorem reach_invWc {ok} {s : S} (r : Reach ok s) : InvWc s := by
  induction r with
  | init a e => intro _ w; simp [init, wgCount]
  | step h a ho hs ih => exact ih.step hs

/-! ## Who waits, waits for something -/

def InvWq (s : S) : Prop := s.fault = false → ∀ w, NoZeroAdd w s.log → s.lists (.wgQ w) ≠ [] → s.wg w ≠ 0

theorem NoZeroAdd.suffix {w : Nat} {a l : List Ev} (h : NoZeroAdd w (a ++ l)) : NoZeroAdd w l := by
  intro x y k d e
  exact h (a ++ x) y k d (by rw [e]; simp)

theorem wgDone_lists {s : S} {i w : Nat} (h : s.wg w = 1) : (wgDone s i w).lists (.wgQ w) = [] := by
  unfold wgDone
  rw [if_neg (by omega)]
  dsimp only
  rw [if_pos (by omega)]
  split
  · rename_i hq; simp only [retv_lists]; exact hq
  · simp [setList]
  · rename_i q _ _
    rw [yfsr_lists]
    exact schedAll_lists (by simp) (by simp [setList])

theorem InvWq.step {ok} {s s' : S} {a : Act} (h : InvWq s) (r : Reach ok s) (r' : Reach ok s') (hs : Rt.step s a = some s') : InvWq s' := by
  intro hf w hz hq
  have hf0 := step_nofault hs
  obtain ⟨es, hes, _⟩ := step_adds hs
  have hz0 : NoZeroAdd w s.log := by rw [hes] at hz; exact hz.suffix
  have hcnt := reach_invWc r hf0
  by_cases he : s.lists (.wgQ w) ≠ []
  · have hne := h hf0 w hz0 he
    rcases step_wg hs with ⟨h1, h2⟩ | ⟨i, k, d, rfl, hc, rfl⟩ | ⟨i, k, rfl, hc, rfl⟩
    · rw [h1]; exact hne
    · obtain ⟨h1, h2⟩ := wgAdd_wg _ _ _ _ hf w
      rw [h1]
      show (if k = w ∧ 0 ≤ s.wg w + d then s.wg w + d else s.wg w) ≠ 0
      split
      · rename_i hk
        obtain ⟨rfl, hk⟩ := hk
        intro e0
        have hlog : (wgAdd (callSt s i (.wgAdd k d)) i k d).log = [] ++ .call i (.wgAdd k d) :: s.log := by rw [h2]; rfl
        have := wgCount_nonneg k s.log
        have h3 := hz [] s.log i d hlog (by rw [← hcnt] at this; omega)
        rw [← hcnt] at h3; exact h3 e0
      · exact hne
    · rw [wgDone_wg]
      show (if k = w ∧ s.wg w ≠ 0 then s.wg w - 1 else s.wg w) ≠ 0
      split
      · rename_i hk
        obtain ⟨rfl, _⟩ := hk
        intro e0
        exact hq (wgDone_lists (s := callSt s i (.wgDone k)) (show s.wg k = 1 by omega))
      · exact hne
  have he : s.lists (.wgQ w) = [] := Classical.not_not.mp he
  obtain ⟨n, hn⟩ := List.exists_mem_of_ne_nil _ hq
  by_cases hA : (∀ c, a ≠ .call c) ∧ (a = .tau → s.sco.cur = none)
  · have := step_sub' hs (L := .wgQ w) (by simp) (by simp) hA.1 hA.2
    rw [he] at this
    exact absurd (List.sublist_nil.mp this) hq
  obtain ⟨o, ho, hsub⟩ := step_subO hs (L := .wgQ w) (by simp) (by simp)
  have hc : s.sco.cur = some n.owner := by
    have := hsub.subset hn
    rw [he] at this
    exact ho n (by simpa using this)
  have hpl := (reach_invL r').pl _ _ hn
  have hn' : n = .co n.owner := by cases n <;> simp [place] at hpl; rfl
  generalize n.owner = i at *
  subst hn'
  obtain ⟨h1, dl, h2⟩ := hpl
  cases a with
  | call c =>
    have hpc := ((pending_call r').mp (pending_call_step hs hc)).1
    obtain ⟨_, _, e⟩ := step_call_of hs hc
    rw [hpc] at h2; subst h2
    rw [e] at h1 ⊢
    simp only [doCall] at h1 ⊢
    unfold wgWait at h1 ⊢
    dsimp only at h1 ⊢
    by_cases g1 : dlCode (callSt s i (.wgWait w dl)) i dl ≠ OK
    · rw [if_pos g1, pc_retv] at h1; cases h1
    rw [if_neg g1] at h1 ⊢
    by_cases g2 : (dlClear (callSt s i (.wgWait w dl)) i).wg w = 0
    · rw [if_pos g2, pc_coyield] at h1; cases h1
    · rw [if_neg g2]; simpa using g2
  | tau =>
    have ht : tauCo s i = some s' := by
      unfold Rt.step at hs; split at hs
      · cases hs
      · simpa [hc] using hs
    rcases tauCo_blk ht h1 with ⟨h, _⟩ | ⟨h, _⟩ | ⟨h, _⟩ <;> cases h
  | _ => exact absurd ⟨by simp, by simp⟩ hA

theorem reach_invWq {ok} {s : S} (r : Reach ok s) : InvWq s := by
  induction r with
  | init a e => intro _ m _ h; simp [init] at h
  | step h a ho hs ih => exact ih.step h (.step h a ho hs) hs

/-! ## Who is told that the counter is zero -/

/-- what a step can say about somebody's waiting in a queue -/
inductive Wake (s : S) (a : Act) (es : List Ev) : LName → Nat → Prop
  | wg (k w j : Nat) (ha : a = .call (.wgDone w)) (hk : s.sco.cur = some k) (h1 : s.wg w = 1)
      (he : es = ((s.lists (.wgQ w)).map (fun n => Ev.wake (.wgQ w) n.owner)).reverse ++ [.call k (.wgDone w)]) (hj : ∃ n ∈ s.lists (.wgQ w), n.owner = j) : Wake s a es (.wgQ w) j
  | sig (k v j : Nat) (n : Node) (q : List Node) (ha : a = .call (.cvSignal v)) (hk : s.sco.cur = some k) (hq : s.lists (.cvQ v) = n :: q)
      (he : es = [.wake (.cvQ v) n.owner, .call k (.cvSignal v)]) (hj : n.owner = j) : Wake s a es (.cvQ v) j
  | bc (k v j : Nat) (ha : a = .call (.cvBcast v)) (hk : s.sco.cur = some k)
      (he : es = ((s.lists (.cvQ v)).map (fun n => Ev.wake (.cvQ v) n.owner)).reverse ++ [.call k (.cvBcast v)]) (hj : ∃ n ∈ s.lists (.cvQ v), n.owner = j) : Wake s a es (.cvQ v) j
  | exit (k j : Nat) (x : Bool) (L : LName) (ha : a = .tau) (hk : s.sco.cur = some k) (hp : (s.co k).pc = .exitRun x) (hL : L = .joinQ k ∨ L = .cancelQ k) : Wake s a es L j

theorem schedAll_log (s : S) (L : LName) (q : List Node) : (schedAll s L q).log = (q.map (fun n => Ev.wake L n.owner)).reverse ++ s.log := by
  induction q generalizing s with
  | nil => rfl
  | cons n q ih => simp only [schedAll]; rw [ih]; simp

theorem wgDone_log1 {s : S} {i w : Nat} (h : s.wg w = 1) : (wgDone s i w).log = ((s.lists (.wgQ w)).map (fun n => Ev.wake (.wgQ w) n.owner)).reverse ++ s.log := by
  unfold wgDone
  rw [if_neg (by omega)]
  dsimp only
  rw [if_pos (by omega)]
  have : (setWg s w (s.wg w - 1)).lists (.wgQ w) = s.lists (.wgQ w) := rfl
  split <;> rename_i hq <;> rw [this] at hq
  · rw [hq]; simp [setWg]
  · rw [hq]; simp [setWg]
  · rw [yfsr_log, schedAll_log]; rfl
theorem wgDone_log0 {s : S} {i w : Nat} (h : s.wg w ≠ 1) : (wgDone s i w).log = s.log := by
  unfold wgDone
  split
  · simp
  · dsimp only; rw [if_neg (by omega)]; simp [setWg]

theorem step_wake {s s' : S} {a : Act} (hs : step s a = some s') {es : List Ev} (hl : s'.log = es ++ s.log) {L : LName} {j : Nat} (hg : .wake L j ∈ es) : Wake s a es L j := by
  obtain ⟨es', hes, hk⟩ := step_adds hs
  have : es' = es := List.append_cancel_right (hes.symm.trans hl)
  subst this
  have hkg := hk _ hg
  simp only [Ev.kind] at hkg
  have noEs : ∀ l, s'.log = l ++ s.log → es' = l := fun l h => List.append_cancel_right (hl.symm.trans h)
  cases a with
  | call c =>
    obtain ⟨i, hc, hx1, hx2, e⟩ := step_call hs
    cases c <;> simp [stepKinds, callKinds] at hkg
    case wgDone w =>
      by_cases h1 : s.wg w = 1
      · have := noEs (((s.lists (.wgQ w)).map (fun n => Ev.wake (.wgQ w) n.owner)).reverse ++ [.call i (.wgDone w)])
          (by rw [e]; simp only [doCall]; rw [wgDone_log1 (s := callSt s i (.wgDone w)) h1]; simp [callSt])
        rw [this] at hg
        simp only [List.mem_append, List.mem_reverse, List.mem_map, List.mem_singleton, reduceCtorEq, or_false, Ev.wake.injEq] at hg
        obtain ⟨n, h2, rfl, h4⟩ := hg
        exact .wg i w j rfl hc h1 this ⟨n, h2, h4⟩
      · have := noEs [.call i (.wgDone w)] (by rw [e]; simp only [doCall]; rw [wgDone_log0 (s := callSt s i (.wgDone w)) h1]; simp [callSt])
        rw [this] at hg; simp at hg
    case cvSignal v =>
      simp only [doCall] at e
      unfold cvSignal at e
      have hL : (callSt s i (.cvSignal v)).lists (.cvQ v) = s.lists (.cvQ v) := rfl
      split at e <;> rename_i hq <;> rw [hL] at hq
      · have := noEs [.call i (.cvSignal v)] (by rw [e]; simp [callSt])
        rw [this] at hg; simp at hg
      · rename_i n q
        have := noEs [.wake (.cvQ v) n.owner, .call i (.cvSignal v)] (by rw [e]; simp [callSt])
        rw [this] at hg
        simp only [List.mem_cons, Ev.wake.injEq, reduceCtorEq, List.not_mem_nil, or_false] at hg
        obtain ⟨rfl, rfl⟩ := hg
        exact .sig i v _ n q rfl hc hq this rfl
    case cvBcast v =>
      simp only [doCall] at e
      unfold cvBcast at e
      have := noEs (((s.lists (.cvQ v)).map (fun n => Ev.wake (.cvQ v) n.owner)).reverse ++ [.call i (.cvBcast v)])
        (by rw [e, yfsr_log, schedAll_log]; simp [callSt])
      rw [this] at hg
      simp only [List.mem_append, List.mem_reverse, List.mem_map, List.mem_singleton, reduceCtorEq, or_false, Ev.wake.injEq] at hg
      obtain ⟨n, h2, rfl, h4⟩ := hg
      exact .bc i v j rfl hc this ⟨n, h2, h4⟩
  | tau =>
    simp only [stepKinds] at hkg
    split at hkg
    · rename_i i hc
      have hp : ∃ x, (s.co i).pc = .exitRun x := by
        unfold pcKinds at hkg; split at hkg <;> first | exact ⟨_, by assumption⟩ | (simp at hkg)
      obtain ⟨x, hp⟩ := hp
      have ht : tauCo s i = some s' := by
        unfold Rt.step at hs; split at hs
        · cases hs
        · simpa [hc] using hs
      refine .exit i j x L rfl hc hp ?_
      unfold tauCo at ht; rw [hp] at ht; simp at ht
      have key : ∀ y, s'.log = (exitNotify s i y).log → L = .joinQ i ∨ L = .cancelQ i := by
        intro y hy
        obtain ⟨e1, e2, h1, h2, h3⟩ := exitNotify_log s i y
        have := noEs (e2 ++ (e1 ++ [.exit i])) (by rw [hy, h1]; simp)
        rw [this] at hg
        simp only [List.mem_append, List.mem_singleton, reduceCtorEq, or_false] at hg
        rcases hg with hg | hg
        · obtain ⟨_, h⟩ := h3 _ hg; cases h; exact .inl rfl
        · obtain ⟨_, h⟩ := h2 _ hg; cases h; exact .inr rfl
      unfold doExit at ht
      (repeat' split at ht)
      · exfalso
        rw [noEs [.clean i _] (by rw [← ht]; rfl)] at hg; simp at hg
      · exact key _ (by rw [← ht])
      · exact key _ (by rw [← ht])
    · unfold mainKinds at hkg; split at hkg <;> simp at hkg
  | _ => simp [stepKinds] at hkg

/-- a coroutine is told that a wait group is done only when the counter is zero -/
def wgP : Ev → List Ev → Prop
  | .wake (.wgQ w) _, b => wgCount w b = 0
  | .nowait (.wgQ w) _, b => wgCount w b = 0
  | _, _ => True

theorem reach_wgP {ok} {s : S} (r : Reach ok s) : Hist wgP s.log := by
  induction r with
  | init a e => exact ⟨trivial, trivial⟩
  | @step s s' r a hok hs ih =>
    obtain ⟨es, hes, hk⟩ := step_adds hs
    rw [hes]
    have hcnt := reach_invWc r (step_nofault hs)
    refine ih.all (fun x e b hb => ?_)
    have hmem : e ∈ es := by rw [hb]; simp
    cases e <;> try trivial
    case wake L j =>
      cases L <;> try trivial
      case wgQ w =>
      show wgCount w _ = 0
      cases step_wake hs hes hmem with
      | wg k w j ha hk' h1 he hj =>
        rw [he] at hb
        have hnc : ∀ i c, Ev.call i c ∈ b → c = .wgDone w ∧ b ≠ [] := by
          intro i c hc
          have : Ev.call i c ∈ ((s.lists (.wgQ w)).map (fun n => Ev.wake (.wgQ w) n.owner)).reverse ++ [.call k (.wgDone w)] := by rw [hb]; simp [hc]
          simp at this
          exact ⟨this.2, by rintro rfl; cases hc⟩
        -- the part before the wake-up is some wake-ups and the call
        have : ∃ ws, b = ws ++ [.call k (.wgDone w)] ∧ ∀ i c, Ev.call i c ∉ ws := by
          rcases List.append_eq_append_iff.mp hb with ⟨y, h2, h3⟩ | ⟨y, h2, h3⟩
          · cases y with
            | nil => simp at h3
            | cons z y =>
              simp only [List.cons_append, List.cons.injEq] at h3
              cases y with
              | nil => simp only [List.nil_append] at h3; obtain ⟨_, h3⟩ := h3; cases h3
              | cons z' y => simp at h3
          · cases y with
            | nil => simp at h3
            | cons z y =>
              simp only [List.cons_append, List.cons.injEq] at h3
              refine ⟨y, h3.2, fun i c hc => ?_⟩
              have : Ev.call i c ∈ ((s.lists (.wgQ w)).map (fun n => Ev.wake (.wgQ w) n.owner)).reverse := by rw [h2]; simp [hc]
              simp at this
        obtain ⟨ws, rfl, hws⟩ := this
        rw [List.append_assoc, wgCount_append (fun i c hc => absurd hc (hws i c))]
        simp only [List.cons_append, List.nil_append, wgCount]
        rw [← hcnt, h1]; rfl
      | exit k j x L ha hk' hp hL => rcases hL with h | h <;> cases h
    case nowait L j =>
      cases L <;> try trivial
      case wgQ w =>
      show wgCount w _ = 0
      have hkk := hk _ hmem
      simp only [Ev.kind] at hkk
      cases a with
      | call c =>
        obtain ⟨i, hc, hx1, hx2, e⟩ := step_call hs
        cases c <;> simp [stepKinds, callKinds] at hkk
        case wgWait v dl =>
          simp only [doCall] at e
          obtain ⟨fs, h1, h2⟩ := wgWait_log (callSt s i (.wgWait v dl)) i v dl
          have h3 : es = fs ++ [.call i (.wgWait v dl)] := by
            apply List.append_cancel_right (bs := s.log)
            rw [← hes, e, h1]; simp [callSt]
          rw [h3] at hmem
          simp only [List.mem_append, List.mem_singleton, reduceCtorEq, or_false] at hmem
          obtain ⟨h4, h5⟩ := h2 _ hmem
          cases h4
          have h6 : s.wg w = 0 := h5
          rw [wgCount_append (fun i' c' hc' => ?_), ← hcnt, h6]
          have : Ev.call i' c' ∈ fs ++ [.call j (.wgWait w dl)] := by rw [← h3, hb]; simp [hc']
          simp only [List.mem_append, List.mem_singleton, Ev.call.injEq] at this
          rcases this with h | ⟨_, rfl⟩
          · obtain ⟨h, _⟩ := h2 _ h; cases h
          · rfl
        case join v dl =>
          exfalso
          simp only [doCall] at e
          obtain ⟨fs, h1, h2⟩ := doJoin_log (callSt s i (.join v dl)) i v dl
          have h3 : es = fs ++ [.call i (.join v dl)] := by
            apply List.append_cancel_right (bs := s.log)
            rw [← hes, e, h1]; simp [callSt]
          rw [h3] at hmem
          simp only [List.mem_append, List.mem_singleton, reduceCtorEq, or_false] at hmem
          obtain ⟨h4, _⟩ := h2 _ hmem
          cases h4
      | tau =>
        exfalso
        simp only [stepKinds] at hkk
        split at hkk
        · unfold pcKinds at hkk; split at hkk <;> simp at hkk
        · unfold mainKinds at hkk; split at hkk <;> simp at hkk
      | _ => simp [stepKinds] at hkk

end Neco.Rt
