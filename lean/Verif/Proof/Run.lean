import Verif.Spec.Run

/-! # The life of a runtime: invariants -/

namespace Neco.Run

/-! ## Memory -/

theorem freeAll_eq : ∀ (l : List Nat) (w : W), (∀ b ∈ l, w.heap b ≠ none) → l.Nodup →
    freeAll w l = { w with heap := fun x => if x ∈ l then none else w.heap x }
  | [], w, _, _ => by simp [freeAll]
  | b :: q, w, h, nd => by
    have hb : w.heap b ≠ none := h b (by simp)
    obtain ⟨hq, nd⟩ := List.nodup_cons.mp nd
    simp only [freeAll, free, hb, if_false]
    rw [freeAll_eq q _ (by
      intro c hc
      have hcb : c ≠ b := fun e => hq (e ▸ hc)
      simp only [hcb, if_false]
      exact h c (by simp [hc])) nd]
    congr 1
    funext x
    by_cases e : x = b <;> by_cases e' : x ∈ q <;> simp [e, e']

theorem freeAll_append (l m : List Nat) (w : W) : freeAll w (l ++ m) = freeAll (freeAll w l) m := by
  induction l generalizing w with
  | nil => rfl
  | cons b q ih => simp [freeAll, ih]

theorem freeOpt_eq (o : Option Nat) (w : W) : freeOpt w o = freeAll w o.toList := by cases o <;> rfl

/-- the blocks of a worker thread, in the order they are freed -/
def WThread.blks (h : WThread) : List Nat := h.entries.toList ++ [h.blk]

def wtBlks : List WThread → List Nat
  | [] => []
  | h :: q => h.blks ++ wtBlks q

/-- the blocks of a worker, in the order they are freed -/
def Worker.blks (k : Worker) : List Nat :=
  match k.threads with
  | none => [k.blk]
  | some a => wtBlks k.th ++ [a, k.blk]

theorem freeThreads_eq : ∀ (l : List WThread) (w : W), freeThreads w l = freeAll w (wtBlks l)
  | [], _ => rfl
  | h :: q, w => by
    simp only [freeThreads, freeThread, wtBlks, WThread.blks, freeAll_append, freeThreads_eq q, freeOpt_eq, freeAll]

theorem workerFree_eq (w : W) (k : Worker) : workerFree w (some k) = freeAll w k.blks := by
  obtain ⟨b, a, l⟩ := k
  cases a with
  | none => rfl
  | some a => simp only [workerFree, Worker.blks, freeThreads_eq, freeAll_append, freeAll]

theorem wtBlks_append (l m : List WThread) : wtBlks (l ++ m) = wtBlks l ++ wtBlks m := by
  induction l with
  | nil => rfl
  | cons h q ih => simp [wtBlks, ih]

/-- the effect of `k` allocations that worked -/
def got (w : W) (t : Nat) (k : Nat) : W :=
  { w with heap := fun x => if w.next ≤ x ∧ x < w.next + k then some (.rt t) else w.heap x, next := w.next + k }

theorem got_zero (w : W) (t : Nat) : got w t 0 = w := by
  unfold got
  have : (fun x => if w.next ≤ x ∧ x < w.next + 0 then some (Owner.rt t) else w.heap x) = w.heap := by
    funext x
    by_cases h : w.next ≤ x ∧ x < w.next + 0
    · omega
    · rw [if_neg h]
  rw [this]; rfl

theorem got_add (w : W) (t j k : Nat) : got (got w t j) t k = got w t (j + k) := by
  unfold got
  dsimp only
  congr 1
  · funext x
    by_cases h1 : w.next + j ≤ x ∧ x < w.next + j + k <;> by_cases h2 : w.next ≤ x ∧ x < w.next + j <;>
      by_cases h3 : w.next ≤ x ∧ x < w.next + (j + k) <;> simp [h1, h2, h3] <;> omega
  · omega

theorem alloc_rt_ok (w : W) (t : Nat) : alloc w (.rt t) true = (got w t 1, some w.next) := by
  unfold alloc got
  simp only [if_true]
  congr 2
  funext x
  by_cases h : x = w.next
  · simp [h]
  · rw [if_neg h, if_neg]; omega

theorem alloc_rt_no (w : W) (t : Nat) : alloc w (.rt t) false = (w, none) := rfl

/-- the loop of `worker_new`: it gets consecutive blocks, all of which are in the list -/
theorem newThreads_spec (t : Nat) (ok : Nat → Bool) : ∀ (n i : Nat) (w : W) (acc : List WThread),
    ∃ k l b, newThreads w t ok n i acc = (got w t k, acc ++ l, b) ∧ (wtBlks l).Perm (List.range' w.next k)
  | 0, _, w, acc => ⟨0, [], true, by simp [newThreads, got_zero], by simp [wtBlks]⟩
  | n + 1, i, w, acc => by
    simp only [newThreads]
    cases h : ok i with
    | false => exact ⟨0, [], false, by simp [alloc_rt_no, got_zero], by simp [wtBlks]⟩
    | true =>
      simp only [alloc_rt_ok]
      cases h1 : ok (i + 1) with
      | false => exact ⟨1, [⟨w.next, none⟩], false, by simp [alloc_rt_no], by simp [wtBlks, WThread.blks]⟩
      | true =>
        simp only [alloc_rt_ok, got_add]
        obtain ⟨k, l, b, e, p⟩ := newThreads_spec t ok n (i + 2) (got w t (1 + 1)) (acc ++ [⟨w.next, some (got w t 1).next⟩])
        refine ⟨2 + k, ⟨w.next, some (got w t 1).next⟩ :: l, b, ?_, ?_⟩
        · rw [e, got_add]; simp
        · simp only [wtBlks, WThread.blks]
          have hn : (got w t (1 + 1)).next = w.next + 2 := rfl
          have hm : (got w t 1).next = w.next + 1 := rfl
          rw [hn] at p
          rw [hm, Nat.add_comm 2 k, List.range'_succ, List.range'_succ]
          refine (List.Perm.swap _ _ _).trans ?_
          exact List.Perm.cons _ (List.Perm.cons _ p)

theorem freeAll_got (w : W) (t k : Nat) (l : List Nat) (fr : ∀ x, w.next ≤ x → w.heap x = none) (p : l.Perm (List.range' w.next k)) :
    freeAll (got w t k) l = { w with next := w.next + k } := by
  rw [freeAll_eq]
  · unfold got
    congr 1
    funext x
    have hx : x ∈ l ↔ w.next ≤ x ∧ x < w.next + k := by rw [p.mem_iff, List.mem_range'_1]
    by_cases h : w.next ≤ x ∧ x < w.next + k
    · simp [hx.mpr h, fr x h.1]
    · simp [hx, h]
  · intro b hb
    rw [p.mem_iff, List.mem_range'_1] at hb
    simp [got, hb]
  · exact p.nodup_iff.mpr (List.nodup_range' (step := 1))

/-- `worker_new` gives back everything if it fails, and has it all in the worker if it does not -/
theorem workerNew_spec (w : W) (t : Nat) (ok : Nat → Bool) (fr : ∀ x, w.next ≤ x → w.heap x = none) :
    (∃ k, workerNew w t ok = ({ w with next := w.next + k }, none)) ∨
    (∃ k K, workerNew w t ok = (got w t k, some K) ∧ K.blks.Perm (List.range' w.next k)) := by
  unfold workerNew
  cases h0 : ok 0 with
  | false => exact .inl ⟨0, by simp [alloc_rt_no]⟩
  | true =>
    simp only [alloc_rt_ok]
    cases h1 : ok 1 with
    | false =>
      refine .inl ⟨1, ?_⟩
      simp only [alloc_rt_no, workerFree_eq]
      rw [freeAll_got w t 1 _ fr (by simp [Worker.blks])]
    | true =>
      simp only [alloc_rt_ok, got_add]
      obtain ⟨k, l, b, e, p⟩ := newThreads_spec t ok w.nthreads 2 (got w t (1 + 1)) []
      rw [e]
      have pp : (Worker.blks ⟨w.next, some (got w t 1).next, l⟩).Perm (List.range' w.next (2 + k)) := by
        simp only [Worker.blks]
        have hn : (got w t (1 + 1)).next = w.next + 2 := rfl
        have hm : (got w t 1).next = w.next + 1 := rfl
        rw [hn] at p
        rw [hm, Nat.add_comm 2 k, List.range'_succ, List.range'_succ]
        refine List.perm_append_comm.trans ?_
        simp only [List.cons_append, List.nil_append]
        refine (List.Perm.swap _ _ _).trans ?_
        exact List.Perm.cons _ (List.Perm.cons _ p)
      cases b with
      | false =>
        refine .inl ⟨2 + k, ?_⟩
        simp only [List.nil_append, workerFree_eq, got_add]
        rw [show 1 + 1 + k = 2 + k from by omega, freeAll_got w t (2 + k) _ fr pp]
      | true =>
        refine .inr ⟨2 + k, _, ?_, pp⟩
        simp only [List.nil_append, got_add]

/-! ## The invariant of one thread -/

/-- the channels that were kept are freed -/
def afterZ : Pc → Bool
  | .free => true
  | .unset _ => true
  | .dl => true
  | .wfree => true
  | .rel => true
  | _ => false

/-- the signal stack is freed -/
def afterS : Pc → Bool
  | .unset _ => true
  | .dl => true
  | .wfree => true
  | .rel => true
  | _ => false

/-- the library is closed -/
def afterD : Pc → Bool
  | .wfree => true
  | .rel => true
  | _ => false

/-- the loop of `rt_scheduler` is left for good -/
def afterF : Pc → Bool
  | .zch => true
  | p => afterZ p

/-- before the first coroutine is started -/
def before : Pc → Bool
  | .sig => true
  | .alt => true
  | .set _ => true
  | .work => true
  | .start => true
  | _ => false

def sigB (p : Pc) (r : Rtm) : List Nat := if afterS p = true then [] else r.sigstack.toList
def zB (p : Pc) (r : Rtm) : List Nat := if afterZ p = true then [] else r.zchanpool.toList ++ r.zchans
def wB (p : Pc) (r : Rtm) : List Nat := if p = .rel then [] else (match r.worker with | none => [] | some k => k.blks)

/-- the blocks of a runtime -/
def blocks (p : Pc) (r : Rtm) : List Nat := r.blk :: (sigB p r ++ (zB p r ++ (wB p r ++ (r.cos ++ r.pool))))

def thBlocks (h : Th) : List Nat := match h.rt with | none => [] | some r => blocks h.pc r

structure InvT (heap : Nat → Option Owner) (dls : Nat) (fds : Nat → Option Owner) (t : Nat) (h : Th) : Prop where
  out : h.pc = .out ↔ h.rt = none
  own : ∀ b, heap b = some (.rt t) ↔ b ∈ thBlocks h
  nd : (thBlocks h).Nodup
  main : ∀ r, h.rt = some r → r.mainthread = decide (t = 0)
  side : ∀ r, h.rt = some r → t ≠ 0 → r.sigstack = none
  pre : ∀ r, h.rt = some r → before h.pc = true → r.cos = [] ∧ r.pool = [] ∧ r.zchans = [] ∧ r.zchanpool = none ∧ r.qfd = 0 ∧
    r.jobs = [] ∧ r.libbsd = false
  wk : ∀ r, h.rt = some r → before h.pc = true → h.pc ≠ .start → r.worker = none
  sg : ∀ r, h.rt = some r → h.pc = .sig → r.sigstack = none
  fin : ∀ r, h.rt = some r → h.pc = .fin → r.cos = []
  post : ∀ r, h.rt = some r → afterF h.pc = true → r.cos = [] ∧ r.pool = []
  dl : ∀ r, h.rt = some r → dls = if r.libbsd = true ∧ afterD h.pc = false then 1 else 0
  dl0 : h.rt = none → dls = 0
  q : ∀ r, h.rt = some r → afterF h.pc = false → r.qfd ≠ 0 → fds r.qfd = some (.rt t)

structure Inv (w : W) : Prop where
  fresh : ∀ x, w.next ≤ x → w.heap x = none
  th : ∀ t, InvT w.heap (w.dls t) w.fds t (w.th t)

theorem InvT.other {heap heap' : Nat → Option Owner} {dls : Nat} {fds fds' : Nat → Option Owner} {t : Nat} {h : Th}
    (i : InvT heap dls fds t h) (hh : ∀ b, heap' b = some (.rt t) ↔ heap b = some (.rt t))
    (hf : ∀ f, fds f = some (.rt t) → fds' f = some (.rt t)) : InvT heap' dls fds' t h :=
  { i with own := fun b => (hh b).trans (i.own b), q := fun r hr ha hq => hf _ (i.q r hr ha hq) }

/-- a step of thread `t` keeps the invariant if it does for `t` and leaves alone what is not `t`'s -/
theorem Inv.of {w w' : W} (t : Nat) (i : Inv w) (fr : ∀ x, w'.next ≤ x → w'.heap x = none)
    (ht : InvT w'.heap (w'.dls t) w'.fds t (w'.th t))
    (ho : ∀ u, u ≠ t → w'.th u = w.th u) (hd : ∀ u, u ≠ t → w'.dls u = w.dls u)
    (hh : ∀ u, u ≠ t → ∀ b, w'.heap b = some (.rt u) ↔ w.heap b = some (.rt u))
    (hf : ∀ u, u ≠ t → ∀ f, w.fds f = some (.rt u) → w'.fds f = some (.rt u)) : Inv w' :=
  { fresh := fr
    th := fun u => by
      by_cases e : u = t
      · subst e; exact ht
      · rw [ho u e, hd u e]; exact (i.th u).other (hh u e) (hf u e) }

end Neco.Run
