import Verif.Proof.Conc2
/-!
# C77: background threads do not disturb the queues

Every interleaving of the instructions of the thread of the runtime with those of the background threads.
-/
namespace Neco.Conc
open Neco.Colist

theorem inv_start {s : S} (h : Start s) : Inv s := by
  refine ⟨fun _ => h.own, ?_, fun _ => h.io, ?_, ?_, ?_, ?_, ?_, h.iol, h.ownl, h.disj, h.log⟩
  · intro r hr; rw [h.mop] at hr; cases hr
  · intro w r hr; rw [h.crit] at hr; cases hr
  · intro w r hr; rw [h.crit] at hr; cases hr
  · intro r hr; rw [h.crit] at hr; cases hr
  · intro n hn; rw [h.tasks] at hn; cases hn
  · rw [h.tasks]; exact List.nodup_nil

theorem inv_reach {s0 s : S} (h0 : Start s0) (r : Reach Rules s0 s) : Inv s := by
  induction r with
  | init => exact inv_start h0
  | step _ a hok hs ih => exact inv_step ih hok hs

/-- C77: no two threads are ever about to touch the links of the same object, let alone with one of them writing. -/
theorem C77_apart_partial {s0 s : S} (h0 : Start s0) (r : Reach Rules s0 s) {k : Run} {w : Option Nat} {k' : Run} {a b : Addr} {x y : Bool}
    (hm : s.mop = some k) (hc : s.crit = some (w, k')) (h1 : k.next = some (a, x)) (h2 : k'.next = some (b, y)) : a ≠ b := by
  rintro rfl
  have h := inv_reach h0 r
  exact h.apart ((h.mr k hm).next h1) ((h.cr w k' hc).next h2)

/-- C77: there is no data race. -/
theorem C77_no_race_partial {s0 s : S} (h0 : Start s0) (r : Reach Rules s0 s) : ¬ Race s := by
  rintro ⟨k, w, k', a, x, y, h1, h2, h3, h4, _⟩
  exact C77_apart_partial h0 r h1 h2 h3 h4 rfl

/-- C77: the queues hold what they should whenever nobody is in the middle of an operation on them, no matter what the other threads are in the middle of. -/
theorem C77_queues_partial {s0 s : S} (h0 : Start s0) (r : Reach Rules s0 s) :
    (s.mop = none → Holds s.mem s.own) ∧ (s.crit = none → Holds s.mem s.io) :=
  ⟨(inv_reach h0 r).mq, (inv_reach h0 r).cq⟩

/-- C77: all operations return what they would without other threads. -/
theorem C77_results_partial {s0 s : S} (h0 : Start s0) (r : Reach Rules s0 s) : s.log = s.spec := (inv_reach h0 r).log

/-- C77: a coroutine handed over is with its task, on `rt->iolist` (or being put there), or back: never lost, never in two places -/
theorem C77_one_place_partial {s0 s : S} (h0 : Start s0) (r : Reach Rules s0 s) :
    s.tasks.Nodup ∧ (∀ n ∈ s.tasks, n ∉ s.own.nodes ∧ n ∉ s.io.nodes) ∧ (∀ n ∈ s.own.nodes, n ∉ s.io.nodes) :=
  ⟨(inv_reach h0 r).nd, fun n hn => ((inv_reach h0 r).tk n hn).2, (inv_reach h0 r).disj⟩

theorem not_lost_step {s s' : S} {a : Act} (h : Inv s) (hok : Rules s a) (hs : step s a = some s') (n : Nat) :
    (n ∈ s'.own.nodes ∨ n ∈ s'.tasks ∨ n ∈ s'.io.nodes) ↔ (n ∈ s.own.nodes ∨ n ∈ s.tasks ∨ n ∈ s.io.nodes) := by
  cases a with
  | begin o => simp only [step] at hs; split at hs <;> cases hs; exact Iff.rfl
  | main =>
    simp only [step] at hs
    split at hs
    · cases hs
    next r hr =>
    split at hs <;> cases hs
    · next hc => dsimp only; rw [((h.mr r hr).done hc).2.2.2.1]
    · exact Iff.rfl
  | submit k =>
    simp only [step] at hs
    split at hs <;> cases hs
    obtain ⟨o1, o2⟩ := hok
    simp only [drop, List.mem_filter, List.mem_cons]
    by_cases hk : n = k
    · subst hk; simp [o1]
    · simp [hk]
  | done k =>
    simp only [step] at hs
    split at hs <;> cases hs
    next hg =>
    simp only [add, List.mem_cons]
    by_cases hk : n = k
    · subst hk; simp [hg.2]
    · rw [List.mem_erase_of_ne hk]; simp [hk]
  | take => simp only [step] at hs; split at hs <;> cases hs; exact Iff.rfl
  | crit =>
    simp only [step] at hs
    split at hs
    · cases hs
    next w r hr =>
    split at hs
    · next hc =>
      have d := (h.cr w r hr).done hc
      split at hs <;> cases hs
      · next k hp =>
        have hkm : k ∈ s.io.nodes := by
          cases w with
          | some j =>
            have e := h.cw j r hr
            have d5 := d.2.2.2.2
            rw [e] at hp d5
            simp only [Q.step] at d5
            split at d5
            · simp only [Option.some.injEq] at d5; rw [← d5] at hp; cases hp
            · cases d5
          | none =>
            obtain ⟨e1, e2⟩ := h.cm r hr
            have d5 := d.2.2.2.2
            rw [e1] at hp d5
            simp only [Q.step] at d5
            split at d5
            · split at d5
              · simp only [Option.some.injEq] at d5; rw [← d5] at hp; cases hp
              · next j l hq =>
                simp only [Option.some.injEq] at d5; rw [← d5] at hp
                simp only [Out.popped.injEq, Option.some.injEq] at hp; subst hp
                exact ((h.cr none r hr).known 0 j (by rw [hq]; exact .head _)).2
            · cases d5
        simp only [drop, add, List.mem_filter, List.mem_cons]
        rw [d.2.2.2.1]
        by_cases hk : n = k
        · subst hk; simp [hkm]
        · simp [hk]
      · dsimp only; rw [d.2.2.2.1]
    · cases hs; exact Iff.rfl

/-- C77: no coroutine is lost on the way and none appears. -/
theorem C77_none_lost_partial {s0 s : S} (h0 : Start s0) (r : Reach Rules s0 s) (n : Nat) :
    (n ∈ s.own.nodes ∨ n ∈ s.tasks ∨ n ∈ s.io.nodes) ↔ (n ∈ s0.own.nodes ∨ n ∈ s0.io.nodes) := by
  induction r with
  | init => rw [h0.tasks]; simp
  | step r a hok hs ih => rw [not_lost_step (inv_reach h0 r) hok hs n, ih]

/-! ## A case in which all this happens, and one in which the rules are broken -/

/-- the lists 0 (`rt->iolist`) and 1, empty; coroutines 1, 2 and 3 -/
def m0 : Mem where
  prev
    | .hd _ => .null
    | .tl i => .hd i
    | .nd n => .nd n
    | .null => .null
  next
    | .hd i => .tl i
    | .tl _ => .null
    | .nd n => .nd n
    | .null => .null

def s0 : S where
  mem := m0
  own := { lists := [1], nodes := [1, 2, 3] }
  io := { lists := [0], nodes := [] }

theorem s0_start : Start s0 where
  own := ⟨fun _ _ => ⟨rfl, rfl⟩, fun _ _ _ => ⟨rfl, rfl⟩, (fun _ _ _ h => by cases h), fun _ => List.nodup_nil, (fun _ _ h => by cases h)⟩
  io := ⟨fun _ _ => ⟨rfl, rfl⟩, (fun _ h => by cases h), (fun _ _ _ h => by cases h), fun _ => List.nodup_nil, (fun _ _ h => by cases h)⟩
  iol := rfl
  ownl := by simp [s0]
  disj := fun _ _ h => by cases h
  mop := rfl
  crit := rfl
  tasks := rfl
  log := rfl

theorem reach_run {ok : S → Act → Prop} {s0 s t : S} (h : Reach ok s0 s) : ∀ {as : List Act}, (∀ x a, a ∈ as → ok x a) → run s as = some t → Reach ok s0 t
  | [], _, hr => by cases hr; exact h
  | a :: as, hok, hr => by
    rw [run] at hr
    split at hr
    · next u hu => exact reach_run (.step h a (hok s a (.head _)) hu) (fun x b hb => hok x b (.tail _ hb)) hr
    · cases hr

def mains (n : Nat) : List Act := List.replicate n .main
def crits (n : Nat) : List Act := List.replicate n .crit

/-- executing a list of actions that keep the rules -/
def rulesB (s : S) : Act → Bool
  | .begin o => (s.own.step o).isSome
  | .submit n => decide (n ∈ s.own.nodes) && s.own.lists.all (fun i => decide (n ∉ s.own.q i))
  | _ => true

def runB (s : S) : List Act → Option S
  | [] => some s
  | a :: as => if rulesB s a = true then (match step s a with | some t => runB t as | none => none) else none

theorem reach_runB {s0 s t : S} (h0 : Start s0) (h : Reach Rules s0 s) : ∀ {as : List Act}, runB s as = some t → Reach Rules s0 t
  | [], hr => by cases hr; exact h
  | a :: as, hr => by
    rw [runB] at hr
    split at hr
    · next hb =>
      have hok : Rules s a := by
        cases a with
        | begin o => intro e; simp [rulesB, e] at hb
        | submit n =>
          simp only [rulesB, Bool.and_eq_true, decide_eq_true_iff, List.all_eq_true] at hb
          refine ⟨hb.1, fun i hi => ?_⟩
          have hI := inv_reach h0 h
          cases hm : s.mop with
          | none => exact hb.2 i ((hI.mq hm).known i n hi).1 hi
          | some r => exact hb.2 i ((hI.mr r hm).known i n hi).1 hi
        | _ => trivial
      split at hr
      · next u hu => exact reach_runB h0 (.step h a hok hu) hr
      · cases hr
    · cases hr

/-- coroutines 1 and 2 are handed over; while 1 is being put on `rt->iolist` coroutine 3 is being put on list 1, instruction by instruction in turns; then 1 is taken
off and put on list 1 while 2 is being put on `rt->iolist` -/
def busy : List Act :=
  [.submit 1, .submit 2, .begin (.push 1 3), .done 1] ++ (List.replicate 10 [.main, .crit]).flatten ++ mains 5 ++ crits 5 ++
  [.take] ++ crits 11 ++ [.done 2, .begin (.push 1 1)] ++ (List.replicate 15 [.crit, .main]).flatten

/-- the hypotheses can be met: in the middle two threads are at work at the same time; at the end 3 and 1 are on list 1 and 2 is on `rt->iolist` -/
example : ∃ s t, Reach Rules s0 s ∧ s.mop.isSome ∧ s.crit.isSome ∧ Reach Rules s0 t ∧ t.own.q 1 = [3, 1] ∧ t.io.q 0 = [2] ∧ t.log.length = 5 ∧
    Linked t.mem (.hd 1) [3, 1] (.tl 1) ∧ Linked t.mem (.hd 0) [2] (.tl 0) := by
  have h1 : (runB s0 (busy.take 20)).any (fun s => s.mop.isSome && s.crit.isSome) = true := by decide +kernel
  have h2 : (runB s0 busy).any (fun t => decide (t.own.q 1 = [3, 1]) && decide (t.io.q 0 = [2]) && decide (t.log.length = 5) && t.mop.isNone && t.crit.isNone && decide (t.own.lists = [1]) && decide (t.io.lists = [0])) = true := by decide +kernel
  rw [Option.any_eq_true] at h1 h2
  obtain ⟨s, hs, h1⟩ := h1
  obtain ⟨t, ht, h2⟩ := h2
  simp only [Bool.and_eq_true, decide_eq_true_iff, Option.isNone_iff_eq_none] at h1 h2
  obtain ⟨⟨⟨⟨⟨⟨a, b⟩, c⟩, d⟩, e⟩, f⟩, g⟩ := h2
  have rt := reach_runB s0_start .init ht
  have q := C77_queues_partial s0_start rt
  refine ⟨s, t, reach_runB s0_start .init hs, h1.1, h1.2, rt, a, b, c, ?_, ?_⟩
  · rw [← a]; exact (q.1 d).linked 1 (by rw [f]; exact .head _)
  · rw [← b]; exact (q.2 e).linked 0 (by rw [g]; exact .head _)

/-- Coroutine 1 is canceled in `neco_work` and waits on list 1 now, while its task completes: first a data race. -/
def race1 : List Act := [.submit 1, .begin (.push 1 1), .done 1] ++ mains 6

/-- C77 is false without the rules: a coroutine that is canceled in `neco_work` goes on, and its task puts it on `rt->iolist` while it puts itself on another queue. This is a data race. -/
theorem C77_race_not_general : ∃ s, Reach (fun _ _ => True) s0 s ∧ Race s := by
  have h : (run s0 race1).any (fun s => match s.mop, s.crit with
    | some r, some (_, k) => decide (r.next = some (.nd 1, true)) && decide (k.next = some (.nd 1, false))
    | _, _ => false) = true := by decide +kernel
  rw [Option.any_eq_true] at h
  obtain ⟨s, hs, h⟩ := h
  refine ⟨s, reach_run .init (fun _ _ _ => trivial) hs, ?_⟩
  split at h
  · next r w k h1 h2 =>
    simp only [Bool.and_eq_true, decide_eq_true_iff] at h
    exact ⟨r, w, k, _, _, _, h1, h2, h.1, h.2, .inl rfl⟩
  · cases h

/-- both have removed it from its list before either of them appends it -/
def race2 : List Act := [.submit 1, .begin (.push 1 1), .done 1] ++ mains 8 ++ crits 8 ++ mains 7 ++ crits 7

/-- one after the other, `n` times -/
def pops (m : Mem) : Nat → Option Mem
  | 0 => some m
  | n + 1 => match popFront m 1 with
    | some (m', some 1) => pops m' n
    | _ => none

theorem pops_all {m : Mem} (h : m.next (.hd 1) = .nd 1) (h1 : m.next (.nd 1) = .nd 1) (h2 : m.prev (.nd 1) = .nd 1) : ∀ n, (pops m n).isSome
  | 0 => rfl
  | n + 1 => by
    have e : popFront m 1 = some (remove m 1, some 1) := by unfold popFront; rw [if_neg (by rw [h]; simp), h]
    rw [pops, e]
    have k1 : (m.setNext (m.prev (.nd 1)) (m.next (.nd 1))) = m := by
      unfold Mem.setNext; rw [h2, h1]
      congr; funext x; split
      · next e => rw [e, h1]
      · rfl
    have k2 : remove m 1 = m := by
      unfold remove
      rw [k1]
      have : m.setPrev (m.next (.nd 1)) (m.prev (.nd 1)) = m := by
        unfold Mem.setPrev; rw [h2, h1]; congr; funext x; split
        · next e => rw [e, h2]
        · rfl
      dsimp only
      rw [this]
      have : m.setNext (.nd 1) (.nd 1) = m := by rw [h1, h2] at k1; exact k1
      rw [this]
      unfold Mem.setPrev; congr; funext x; split
      · next e => rw [e, h2]
      · rfl
    rw [k2]
    exact pops_all h h1 h2 n

/-- C77 is false without the rules: afterwards, with nobody in the middle of anything, no contents of list 1 fit the links; and after one was taken off `rt->iolist`,
taking one off list 1 yields the same coroutine every time, however often: a loop that empties the list does not end. -/
theorem C77_broken_not_general : ∃ s t, Reach (fun _ _ => True) s0 s ∧ s.mop = none ∧ s.crit = none ∧ s.tasks = [] ∧ (¬ ∃ l, Linked s.mem (.hd 1) l (.tl 1)) ∧
    Reach (fun _ _ => True) s0 t ∧ t.mop = none ∧ t.crit = none ∧ ∀ n, (pops t.mem n).isSome := by
  have h1 : (run s0 race2).any (fun s => s.mop.isNone && s.crit.isNone && decide (s.tasks = []) && decide (s.mem.next (.hd 1) = .nd 1) && decide (s.mem.prev (.nd 1) = .hd 0)) = true := by
    decide +kernel
  have h2 : (run s0 (race2 ++ [.take] ++ crits 11)).any (fun s => s.mop.isNone && s.crit.isNone && decide (s.mem.next (.hd 1) = .nd 1) && decide (s.mem.next (.nd 1) = .nd 1) && decide (s.mem.prev (.nd 1) = .nd 1)) = true := by
    decide +kernel
  rw [Option.any_eq_true] at h1 h2
  obtain ⟨s, hs, h1⟩ := h1
  obtain ⟨t, ht, h2⟩ := h2
  simp only [Bool.and_eq_true, decide_eq_true_iff, Option.isNone_iff_eq_none] at h1 h2
  obtain ⟨⟨⟨⟨a, b⟩, c⟩, d⟩, e⟩ := h1
  obtain ⟨⟨⟨⟨a', b'⟩, c'⟩, d'⟩, e'⟩ := h2
  refine ⟨s, t, reach_run .init (fun _ _ _ => trivial) hs, a, b, c, ?_, reach_run .init (fun _ _ _ => trivial) ht, a', b', pops_all c' d' e'⟩
  rintro ⟨l, hl⟩
  cases l with
  | nil => rw [Linked, d] at hl; cases hl.1
  | cons n l =>
    rw [Linked, d] at hl
    obtain ⟨e1, e2, _⟩ := hl
    cases e1
    rw [e] at e2; cases e2

end Neco.Conc
