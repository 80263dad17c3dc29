import Verif.Proof.RtChan2
/-!
# What a step does to a coroutine that is not running
-/
namespace Neco.Rt
open Neco.Err

/-- the events that mention coroutine `j` -/
def Ev.about (j : Nat) : Ev → Bool
  | .call i _ => i == j
  | .ret i _ _ _ => i == j
  | .start p i => p == some j || i == j
  | .exit i => i == j
  | .clean i _ => i == j
  | .cancel i t => i == j || t == j
  | .put _ i _ => i == j
  | .take _ r _ => r == j
  | .withdraw _ i => i == j
  | .bcastTo _ r _ => r == j
  | .grant _ i _ => i == j
  | .release _ i => i == j
  | .wake _ i => i == j
  | .nowait _ i => i == j
  | .resume i t => i == j || t == j
  | .ready _ _ i => i == j
  | .kill i _ => i == j
  | .wdone i => i == j
  | .sig _ => false
  | .sigTo _ i => i == j
  | .stats i _ => i == j
  | .halt => false

/-- the history of coroutine `j` -/
def lg (j : Nat) (s : S) : List Ev := s.log.filter (Ev.about j)

/-- the change of what coroutine `j` sees: its record by `f`, the events `es` about it, the nodes `gone`, whether it is
put into the list of the main loop, whether it is made ready -/
structure Dlt (j : Nat) (f : Co → Co) (es : List Ev) (gone : Node → LName → Prop) (res up : Bool) (s t : S) : Prop where
  co : t.co j = f (s.co j)
  mem : ∀ n L, n.owner = j → (n ∈ t.lists L ↔ (n ∈ s.lists L ∧ ¬ gone n L) ∨ (res = true ∧ n = .co j ∧ L = .resumers))
  pz : j ∈ t.sco.paused ↔ j ∈ s.sco.paused ∧ up = false
  dl : j ∈ t.dlq ↔ j ∈ s.dlq
  ev : ∀ fd w, (fd, w, j) ∈ t.evw ↔ (fd, w, j) ∈ s.evw
  jb : t.jobs.count j = s.jobs.count j
  log : lg j t = es ++ lg j s
  clk : s.clock ≤ t.clock

/-- one change of what coroutine `j` sees -/
inductive Mv (j : Nat) (s t : S) : Prop
  | same (h : Dlt j id [] (fun _ _ => False) false false s t)
  | take (c : Nat) (m : Msg) (hn : .co j ∈ s.lists (.chanQ c)) (hp : (s.co j).pc = .blk .recv) (hc : ∃ dl, (s.co j).call = .recv c dl)
      (h : Dlt j (fun k => { k with rdat := m }) [.take c j m] (fun n _ => n = .co j) false true s t)
  | takeCase (c : Nat) (m : Msg) (k : Nat) (hn : .case j k ∈ s.lists (.chanQ c)) (hp : (s.co j).pc = .blk .sel)
      (hc : ∃ cs dl, (s.co j).call = .select cs dl ∧ cs[k]? = some c) (hr : (s.co j).retIdx = -1)
      (h : Dlt j (fun x => { x with retIdx := k }) [.take c j m] (fun n _ => n = .case j k) false true s t)
  | bcast (c : Nat) (m : Msg) (hn : .co j ∈ s.lists (.chanQ c)) (hp : (s.co j).pc = .blk .recv) (hc : ∃ dl, (s.co j).call = .recv c dl)
      (h : Dlt j (fun k => { k with rdat := m }) [.bcastTo c j m] (fun n _ => n = .co j) true false s t)
  | bcastCase (c : Nat) (m : Msg) (k : Nat) (hn : .case j k ∈ s.lists (.chanQ c)) (hp : (s.co j).pc = .blk .sel)
      (hc : ∃ cs dl, (s.co j).call = .select cs dl ∧ cs[k]? = some c) (hr : (s.co j).retIdx = -1)
      (h : Dlt j (fun x => { x with retIdx := k }) [.bcastTo c j m] (fun n _ => n = .case j k ∨ n = .co j) true false s t)
  | close (c : Nat) (hn : .co j ∈ s.lists (.chanQ c)) (hp : (s.co j).pc = .blk .recv) (hc : ∃ dl, (s.co j).call = .recv c dl)
      (h : Dlt j (fun k => { k with cclosed := true }) [] (fun n _ => n = .co j) true false s t)
  | closeCase (c : Nat) (k : Nat) (hn : .case j k ∈ s.lists (.chanQ c)) (hp : (s.co j).pc = .blk .sel)
      (hc : ∃ cs dl, (s.co j).call = .select cs dl ∧ cs[k]? = some c) (hr : (s.co j).retIdx = -1)
      (h : Dlt j (fun x => { x with retIdx := k, cclosed := true }) [] (fun n _ => n = .case j k ∨ n = .co j) true false s t)
  | skip (gone : Node → LName → Prop) (hr : (s.co j).retIdx ≠ -1) (hg : ∀ n L, gone n L → ∃ k, n = .case j k)
      (h : Dlt j id [] gone false false s t)
  | sent (c : Nat) (hn : .co j ∈ s.lists (.chanQ c)) (hp : (s.co j).pc = .blk .send) (hc : sendOf (s.co j) = some c)
      (h : Dlt j id [] (fun n _ => n = .co j) false true s t)
  | grant (m : Nat) (rd : Bool) (hn : .co j ∈ s.lists (.muQ m)) (hr : (s.co j).rlocked = rd)
      (h : Dlt j id [.grant m j rd] (fun n _ => n = .co j) true false s t)
  | wake (L : LName) (now : Bool) (hn : .co j ∈ s.lists L)
      (hL : (∃ w, L = .wgQ w) ∨ (∃ v, L = .cvQ v) ∨ (∃ t, L = .joinQ t) ∨ (∃ t, L = .cancelQ t))
      (h : Dlt j id [.wake L j] (fun n _ => n = .co j) (!now) now s t)
  | resumed (i : Nat) (hp : (s.co j).suspended = true) (h : Dlt j id [.resume i j] (fun _ _ => False) false true s t)
  | canceled (i : Nat) (he : (s.co j).enabled = true)
      (h : Dlt j (fun k => { k with canceled := true }) [.cancel i j] (fun _ _ => False) false true s t)
  | fromRes (hn : .co j ∈ s.lists .resumers) (h : Dlt j id [] (fun n L => n = .co j ∧ L = .resumers) false true s t)
  | fromIo (hn : .co j ∈ s.lists .iolist) (h : Dlt j id [] (fun n L => n = .co j ∧ L = .iolist) false true s t)
  | ready (fd : Nat) (w : Bool) (es : List Ev) (hn : (fd, w, j) ∈ s.evw) (he : es ≠ []) (hes : ∀ e ∈ es, e = .ready fd w j)
      (h : Dlt j id es (fun _ _ => False) false true s t)
  | sigTo (n : Nat) (hn : .co j ∈ s.lists .sigQ) (hm : (s.co j).sigmask.testBit n = true)
      (h : Dlt j (fun k => { k with sigmask := n }) [.sigTo n j] (fun _ _ => False) false true s t)
  | deadlined (hn : j ∈ s.dlq) (hd : (s.co j).deadline < s.clock)
      (h : Dlt j (fun k => { k with deadlined := true }) [] (fun _ _ => False) false true s t)
  | wdone (hj : j ∈ s.jobs) (co : t.co j = s.co j)
      (mem : ∀ n L, n.owner = j → (n ∈ t.lists L ↔ (n ∈ s.lists L ∧ n ≠ .co j) ∨ (n = .co j ∧ L = .iolist)))
      (pz : j ∈ t.sco.paused ↔ j ∈ s.sco.paused) (dl : j ∈ t.dlq ↔ j ∈ s.dlq)
      (ev : ∀ fd w, (fd, w, j) ∈ t.evw ↔ (fd, w, j) ∈ s.evw) (jb : t.jobs.count j + 1 = s.jobs.count j)
      (log : lg j t = .wdone j :: (leave s j ++ lg j s)) (clk : s.clock ≤ t.clock)

inductive Mvs (j : Nat) : S → S → Prop
  | refl (s : S) : Mvs j s s
  | head {s t u : S} (h : Mv j s t) (g : Mvs j t u) : Mvs j s u

theorem Mvs.one {j : Nat} {s t : S} (h : Mv j s t) : Mvs j s t := .head h (.refl t)

theorem Mvs.trans {j : Nat} {s t u : S} (h : Mvs j s t) (g : Mvs j t u) : Mvs j s u := by
  induction h with
  | refl => exact g
  | head a b ih => exact .head a (ih g)

theorem Dlt.same {j : Nat} {s t : S} (co : t.co j = s.co j) (mem : ∀ n L, n.owner = j → (n ∈ t.lists L ↔ n ∈ s.lists L))
    (pz : j ∈ t.sco.paused ↔ j ∈ s.sco.paused) (dl : j ∈ t.dlq ↔ j ∈ s.dlq) (ev : ∀ fd w, (fd, w, j) ∈ t.evw ↔ (fd, w, j) ∈ s.evw)
    (jb : t.jobs.count j = s.jobs.count j) (log : lg j t = lg j s) (clk : s.clock ≤ t.clock) :
    Dlt j id [] (fun _ _ => False) false false s t :=
  ⟨co, fun n L h => by rw [mem n L h]; simp, by rw [pz]; simp, dl, ev, jb, by rw [log]; rfl, clk⟩

/-! ## Scheduler effects -/

@[simp] theorem switch_paused (x : Sco) (b : Bool) : (x.switch b).paused = x.paused := by
  unfold Sco.switch Sco.toMain Sco.promote Sco.dispatch
  (repeat' split) <;> rfl
@[simp] theorem yield_paused (x : Sco) : x.yield.paused = x.paused := by unfold Sco.yield; split <;> simp
@[simp] theorem start_paused (x : Sco) : x.start.paused = x.paused := by unfold Sco.start; split <;> simp
@[simp] theorem finish_paused (x : Sco) : x.finish.paused = x.paused := by unfold Sco.finish; simp
@[simp] theorem exit_paused (x : Sco) : x.exit.paused = x.paused := by unfold Sco.exit; simp
@[simp] theorem resume0_paused (x : Sco) : x.resume0.paused = x.paused := by unfold Sco.resume0; simp
theorem pause_paused (x : Sco) {i : Nat} (h : x.cur = some i) : x.pause.paused = i :: x.paused := by
  unfold Sco.pause; rw [h]; simp
theorem mem_pause {x : Sco} {i j : Nat} (h : x.cur = some i) (hj : j ≠ i) : j ∈ x.pause.paused ↔ j ∈ x.paused := by
  rw [pause_paused x h]; simp [hj]
theorem mem_resume {x : Sco} {id j : Nat} : j ∈ (x.resume id).paused ↔ j ∈ x.paused ∧ j ≠ id := by
  unfold Sco.resume; split
  · rw [yield_paused]; simp [Sco.wake]
  · rename_i h
    constructor
    · intro h'; exact ⟨h', fun e => h (e ▸ h')⟩
    · exact fun h' => h'.1
theorem mem_wakeAll {s : S} {q : List Nat} {j : Nat} : j ∈ (wakeAll s q).sco.paused ↔ j ∈ s.sco.paused ∧ j ∉ q := by
  induction q generalizing s with
  | nil => simp [wakeAll]
  | cons i q ih =>
    simp only [wakeAll]; rw [ih]; simp only [scoResume, mem_resume, List.mem_cons, not_or, and_assoc]

theorem mem_dlInsert {co : Nat → Co} {i j : Nat} {q : List Nat} : j ∈ dlInsert co i q ↔ j = i ∨ j ∈ q := by
  induction q with
  | nil => simp [dlInsert]
  | cons k q ih =>
    simp only [dlInsert]; split
    · simp
    · simp only [List.mem_cons, ih]
      constructor
      · rintro (h | h | h) <;> simp [h]
      · rintro (h | h | h) <;> simp [h]

theorem mem_evInsert {e f : Nat × Bool × Nat} {q : List (Nat × Bool × Nat)} : f ∈ evInsert e q ↔ f = e ∨ f ∈ q := by
  induction q with
  | nil => simp [evInsert]
  | cons k q ih =>
    simp only [evInsert]; split
    · simp
    · simp only [List.mem_cons, ih]
      constructor
      · rintro (h | h | h) <;> simp [h]
      · rintro (h | h | h) <;> simp [h]

@[simp] theorem lg_note_self (j : Nat) (s : S) (e : Ev) : lg j (note s e) = if e.about j = true then e :: lg j s else lg j s := by
  unfold lg note; simp [List.filter_cons]

theorem lg_of_log {j : Nat} {s t : S} (h : t.log = s.log) : lg j t = lg j s := by unfold lg; rw [h]

theorem mem_sched {s : S} {r : Nat} {x : Node} {K : LName} :
    x ∈ (schedResume s r).lists K ↔ (x ∈ s.lists K ∧ x ≠ .co r) ∨ (K = .resumers ∧ x = .co r) := by
  unfold schedResume; exact mem_push

theorem owner_ne {x : Node} {i j : Nat} (h : x.owner = j) (hj : j ≠ i) : x ≠ .co i := by
  rintro rfl; exact hj h.symm

theorem owner_ne' {x : Node} {i j k : Nat} (h : x.owner = j) (hj : j ≠ i) : x ≠ .case i k := by
  rintro rfl; exact hj h.symm

theorem Mvs.same {j : Nat} {s t : S} (co : t.co j = s.co j) (mem : ∀ n L, n.owner = j → (n ∈ t.lists L ↔ n ∈ s.lists L))
    (pz : j ∈ t.sco.paused ↔ j ∈ s.sco.paused) (dl : j ∈ t.dlq ↔ j ∈ s.dlq) (ev : ∀ fd w, (fd, w, j) ∈ t.evw ↔ (fd, w, j) ∈ s.evw)
    (jb : t.jobs.count j = s.jobs.count j) (log : lg j t = lg j s) (clk : s.clock ≤ t.clock) : Mvs j s t :=
  .one (.same (Dlt.same co mem pz dl ev jb log clk))

/-- the common case: nothing but other coroutines' records and unrelated fields change -/
theorem Mvs.eqs {j : Nat} {s t : S} (co : t.co j = s.co j) (mem : t.lists = s.lists) (pz : t.sco.paused = s.sco.paused)
    (dl : t.dlq = s.dlq) (ev : t.evw = s.evw) (jb : t.jobs = s.jobs) (log : t.log = s.log) (clk : t.clock = s.clock) : Mvs j s t :=
  .same co (fun n L _ => by rw [mem]) (by rw [pz]) (by rw [dl]) (fun _ _ => by rw [ev]) (by rw [jb]) (lg_of_log log) (by rw [clk]; exact Int.le_refl _)

/-! ## The loops over a queue of receivers -/

structure RQ (j c : Nat) (s : S) (q : List Node) : Prop where
  nd : q.Nodup
  co : .co j ∈ q → (s.co j).pc = .blk .recv ∧ ∃ dl, (s.co j).call = .recv c dl
  ca : ∀ k, .case j k ∈ q → (s.co j).pc = .blk .sel ∧ ∃ cs dl, (s.co j).call = .select cs dl ∧ cs[k]? = some c
  dj : ∀ n ∈ q, n.owner = j → ∀ K, K ≠ .chanQ c → n ∉ s.lists K

theorem RQ.tail {j c : Nat} {s t : S} {n : Node} {q : List Node} (h : RQ j c s (n :: q)) (hv : view (t.co j) = view (s.co j))
    (hl : ∀ x ∈ q, x.owner = j → ∀ K, K ≠ .chanQ c → x ∉ s.lists K → x ∉ t.lists K) : RQ j c t q := by
  simp only [view, Prod.mk.injEq] at hv
  refine ⟨(List.nodup_cons.mp h.nd).2, ?_, ?_, ?_⟩
  · rw [hv.1, hv.2.1]; exact fun hn => h.co (List.mem_cons_of_mem _ hn)
  · rw [hv.1, hv.2.1]; exact fun k hn => h.ca k (List.mem_cons_of_mem _ hn)
  · exact fun x hx ho K hK => hl x hx ho K hK (h.dj x (List.mem_cons_of_mem _ hx) ho K hK)

/-- dropping a case that was already served -/
theorem Mvs.skip {j c r k : Nat} {s : S} {q : List Node} (h : RQ j c s (.case r k :: q)) (hr : (s.co r).retIdx ≠ -1) :
    Mvs j (setList s (.chanQ c) (.case r k :: q)) (setList s (.chanQ c) q) := by
  have hnd := (List.nodup_cons.mp h.nd).1
  by_cases e : j = r
  · subst e
    refine .one (.skip (fun n L => n = .case j k ∧ L = .chanQ c) hr (fun n L hg => ⟨k, hg.1⟩) ⟨rfl, ?_, by simp [setList], by simp [setList], by simp [setList], by simp [setList], rfl, Int.le_refl _⟩)
    intro x K ho
    simp only [setList_lists]
    by_cases hK : K = .chanQ c
    · subst hK
      simp only [if_true, List.mem_cons]
      constructor
      · intro hx; left; exact ⟨.inr hx, fun hg => hnd (hg.1 ▸ hx)⟩
      · rintro (⟨hx | hx, hg⟩ | hx)
        · exact absurd ⟨hx, trivial⟩ hg
        · exact hx
        · simp at hx
    · simp [hK]
  · refine .same rfl ?_ (by simp [setList]) (by simp [setList]) (by simp [setList]) (by simp [setList]) rfl (Int.le_refl _)
    intro x K ho
    simp only [setList_lists]
    split
    · simp [owner_ne' ho e]
    · rfl

theorem Mvs.sendLoop {j c : Nat} {m : Msg} {s : S} {q : List Node} (h : RQ j c s q) :
    match (sendLoop s c m q).2 with
    | some r => Mvs j (setList s (.chanQ c) q) (scoResume (Rt.sendLoop s c m q).1 r)
    | none => Mvs j (setList s (.chanQ c) q) (Rt.sendLoop s c m q).1 := by
  induction q with
  | nil => simp only [Rt.sendLoop]; exact .refl _
  | cons n q ih =>
    have hnd := (List.nodup_cons.mp h.nd).1
    cases n with
    | co r =>
      simp only [Rt.sendLoop]
      by_cases e : j = r
      · subst e
        have hc := h.co List.mem_cons_self
        refine .one (.take c m (by simp [setList_lists]) hc.1 hc.2 ⟨by simp [scoResume, upd_co, setList], ?_,
          by simp [scoResume, mem_resume, setList], by simp [scoResume, setList], by simp [scoResume, setList], by simp [scoResume, setList], ?_, by simp [scoResume, setList]⟩)
        · intro x K ho
          simp only [scoResume, note_lists, upd_lists, setList_lists]
          by_cases hK : K = .chanQ c
          · subst hK; simp only [if_true, List.mem_cons]
            constructor
            · intro hx; left; exact ⟨.inr hx, fun hg => hnd (hg ▸ hx)⟩
            · rintro (⟨hx | hx, hg⟩ | hx)
              · exact absurd hx hg
              · exact hx
              · simp at hx
          · simp only [hK, if_false]
            constructor
            · intro hx; left; exact ⟨hx, fun hg => h.dj _ List.mem_cons_self rfl K hK (hg ▸ hx)⟩
            · rintro (⟨hx, hg⟩ | hx)
              · exact hx
              · simp at hx
        · simp [lg, scoResume, note, Ev.about, setList, upd]
      · refine .same (by simp [scoResume, upd_co, setList, e]) ?_ (by simp [scoResume, mem_resume, setList, e]) (by simp [scoResume, setList]) (by simp [scoResume, setList]) (by simp [scoResume, setList]) ?_ (by simp [scoResume, setList])
        · intro x K ho
          simp only [scoResume, note_lists, upd_lists, setList_lists]
          split
          · simp [owner_ne ho e]
          · rfl
        · simp [lg, scoResume, note, Ev.about, setList, upd, Ne.symm e]
    | case r k =>
      simp only [Rt.sendLoop]
      by_cases hr : (s.co r).retIdx ≠ -1
      · simp only [hr, if_true, ne_eq, not_false_eq_true]
        have ih := ih (h.tail rfl (fun x _ _ K _ hx => hx))
        have hs := Mvs.skip h hr
        split
        · rename_i r' e'; rw [e'] at ih; exact hs.trans ih
        · rename_i e'; rw [e'] at ih; exact hs.trans ih
      · rw [if_neg hr]
        replace hr := Classical.not_not.mp hr
        by_cases e : j = r
        · subst e
          have hc := h.ca k List.mem_cons_self
          refine .one (.takeCase c m k (by simp [setList_lists]) hc.1 hc.2 hr ⟨by simp [scoResume, upd, setList, note], ?_,
            by simp [scoResume, mem_resume, setList], by simp [scoResume, setList], by simp [scoResume, setList], by simp [scoResume, setList], ?_, by simp [scoResume, setList]⟩)
          · intro x K ho
            simp only [scoResume, note, upd, setList]
            by_cases hK : K = .chanQ c
            · subst hK; simp only [if_true, List.mem_cons]
              constructor
              · intro hx; left; exact ⟨.inr hx, fun hg => hnd (hg ▸ hx)⟩
              · rintro (⟨hx | hx, hg⟩ | hx)
                · exact absurd hx hg
                · exact hx
                · simp at hx
            · simp only [hK, if_false]
              constructor
              · intro hx; left; exact ⟨hx, fun hg => h.dj _ List.mem_cons_self rfl K hK (hg ▸ hx)⟩
              · rintro (⟨hx, hg⟩ | hx)
                · exact hx
                · simp at hx
          · simp [lg, scoResume, note, Ev.about, setList, upd]
        · refine .same (by simp [scoResume, upd, note, setList, e]) ?_ (by simp [scoResume, mem_resume, setList, e]) (by simp [scoResume, setList]) (by simp [scoResume, setList]) (by simp [scoResume, setList]) ?_ (by simp [scoResume, setList])
          · intro x K ho
            simp only [scoResume, note, upd, setList]
            split
            · simp [owner_ne' ho e]
            · rfl
          · simp [lg, scoResume, note, Ev.about, setList, upd, Ne.symm e]

theorem Mvs.bcastLoop {j c : Nat} {m : Msg} {s : S} {q : List Node} (h : RQ j c s q) :
    Mvs j (setList s (.chanQ c) q) (bcastLoop s c m q).1 := by
  induction q generalizing s with
  | nil => exact .refl _
  | cons n q ih =>
    have hnd := (List.nodup_cons.mp h.nd).1
    cases n with
    | co r =>
      simp only [Rt.bcastLoop]
      refine .trans (t := setList (schedResume (note (upd (setList s (.chanQ c) q) r fun k => { k with rdat := m }) (.bcastTo c r m)) r) (.chanQ c) q) ?_ (ih (h.tail ?_ ?_))
      · by_cases e : j = r
        · subst e
          have hc := h.co List.mem_cons_self
          refine .one (.bcast c m (by simp [setList_lists]) hc.1 hc.2 ⟨by simp [upd_co, setList], ?_,
            by simp [setList], by simp [setList], by simp [setList], by simp [setList], by simp [lg, note, Ev.about, setList, upd], by simp [setList]⟩)
          intro x K ho
          rw [setList_lists]
          by_cases hK : K = .chanQ c
          · subst hK
            simp only [if_true, setList_lists, List.mem_cons]
            constructor
            · intro hx; left; exact ⟨.inr hx, fun hg => hnd (hg ▸ hx)⟩
            · rintro (⟨hx | hx, hg⟩ | hx)
              · exact absurd hx hg
              · exact hx
              · simp at hx
          · simp only [hK, if_false, mem_sched, note_lists, upd_lists, setList_lists, true_and]
            constructor
            · rintro (hx | hx)
              · exact .inl hx
              · exact .inr hx.symm
            · rintro (hx | hx)
              · exact .inl hx
              · exact .inr hx.symm
        · refine .same (by simp [upd_co, setList, e]) ?_ (by simp [setList]) (by simp [setList]) (by simp [setList]) (by simp [setList]) (by simp [lg, note, Ev.about, setList, upd, Ne.symm e]) (by simp [setList])
          intro x K ho
          have := owner_ne ho e
          by_cases hK : K = .chanQ c
          · simp [setList_lists, hK, this]
          · simp [setList_lists, hK, mem_sched, this]
      · simp only [schedResume_co, note_co, upd_co]; split
        · subst_vars; rfl
        · rfl
      · intro x hx ho K hK hn
        simp only [mem_sched, note_lists, upd_lists, setList_lists, hK, if_false]
        rintro (hx' | hx')
        · exact hn hx'.1
        · exact hnd (hx'.2 ▸ hx)
    | case r k =>
      simp only [Rt.bcastLoop]
      by_cases hr : (s.co r).retIdx ≠ -1
      · rw [if_pos hr]
        exact (Mvs.skip h hr).trans (ih (h.tail rfl (fun x _ _ K _ hx => hx)))
      · rw [if_neg hr]
        replace hr := Classical.not_not.mp hr
        dsimp only
        refine .trans (t := setList (schedResume _ r) (.chanQ c) q) ?_ (ih (h.tail ?_ ?_))
        · by_cases e : j = r
          · subst e
            have hc := h.ca k List.mem_cons_self
            refine .one (.bcastCase c m k (by simp [setList_lists]) hc.1 hc.2 hr ⟨by simp [upd, note, setList], ?_,
              by simp [setList], by simp [setList], by simp [setList], by simp [setList], by simp [lg, note, Ev.about, setList, upd], by simp [setList]⟩)
            intro x K ho
            rw [setList_lists]
            by_cases hK : K = .chanQ c
            · subst hK
              simp only [if_true, setList_lists, List.mem_cons]
              have hnc : Node.co j ∉ q := fun hq => by have := (h.co (List.mem_cons_of_mem _ hq)).1; rw [hc.1] at this; simp at this
              constructor
              · intro hx; left; refine ⟨.inr hx, ?_⟩
                rintro (hg | hg)
                · exact hnd (hg ▸ hx)
                · exact hnc (hg ▸ hx)
              · rintro (⟨hx | hx, hg⟩ | hx)
                · exact absurd (.inl hx) hg
                · exact hx
                · simp at hx
            · simp only [hK, if_false, mem_sched, note, upd, setList, true_and]
              constructor
              · rintro (hx | hx)
                · refine .inl ⟨hx.1, ?_⟩
                  rintro (hg | hg)
                  · exact h.dj _ List.mem_cons_self rfl K hK (hg ▸ hx.1)
                  · exact hx.2 hg
                · exact .inr hx.symm
              · rintro (hx | hx)
                · exact .inl ⟨hx.1, fun hg => hx.2 (.inr hg)⟩
                · exact .inr hx.symm
          · refine .same (by simp [upd, note, setList, e]) ?_ (by simp [setList]) (by simp [setList]) (by simp [setList]) (by simp [setList]) (by simp [lg, note, Ev.about, setList, upd, Ne.symm e]) (by simp [setList])
            intro x K ho
            have := owner_ne ho e
            have := owner_ne' (k := k) ho e
            by_cases hK : K = .chanQ c
            · simp [setList_lists, hK, *]
            · simp [setList, note, upd, hK, mem_sched, *]
        · simp only [schedResume_co, note, upd]; split
          · subst_vars; rfl
          · rfl
        · intro x hx ho K hK hn
          simp only [mem_sched, note, upd, setList, hK, if_false]
          rintro (hx' | hx')
          · exact hn hx'.1
          · rw [hx'.2] at ho hx
            have e : r = j := ho
            subst e
            have h1 := (h.ca k List.mem_cons_self).1
            have := (h.co (List.mem_cons_of_mem _ hx)).1
            rw [h1] at this; simp at this

theorem Mvs.closeLoop {j c : Nat} {s : S} {q : List Node} (h : RQ j c s q) :
    Mvs j (setList s (.chanQ c) q) (closeLoop s c q) := by
  induction q generalizing s with
  | nil => exact .refl _
  | cons n q ih =>
    have hnd := (List.nodup_cons.mp h.nd).1
    cases n with
    | co r =>
      simp only [Rt.closeLoop]
      refine .trans (t := setList (schedResume (upd (setList s (.chanQ c) q) r fun k => { k with cclosed := true }) r) (.chanQ c) q) ?_ (ih (h.tail ?_ ?_))
      · by_cases e : j = r
        · subst e
          have hc := h.co List.mem_cons_self
          refine .one (.close c (by simp [setList_lists]) hc.1 hc.2 ⟨by simp [upd_co, setList], ?_,
            by simp [setList], by simp [setList], by simp [setList], by simp [setList], by simp [lg, setList, upd], by simp [setList]⟩)
          intro x K ho
          rw [setList_lists]
          by_cases hK : K = .chanQ c
          · subst hK
            simp only [if_true, setList_lists, List.mem_cons]
            constructor
            · intro hx; left; exact ⟨.inr hx, fun hg => hnd (hg ▸ hx)⟩
            · rintro (⟨hx | hx, hg⟩ | hx)
              · exact absurd hx hg
              · exact hx
              · simp at hx
          · simp only [hK, if_false, mem_sched, upd_lists, setList_lists, true_and]
            constructor
            · rintro (hx | hx)
              · exact .inl hx
              · exact .inr hx.symm
            · rintro (hx | hx)
              · exact .inl hx
              · exact .inr hx.symm
        · refine .same (by simp [upd_co, setList, e]) ?_ (by simp [setList]) (by simp [setList]) (by simp [setList]) (by simp [setList]) (by simp [lg, setList, upd]) (by simp [setList])
          intro x K ho
          have := owner_ne ho e
          by_cases hK : K = .chanQ c
          · simp [setList_lists, hK, this]
          · simp [setList_lists, hK, mem_sched, this]
      · simp only [schedResume_co, upd_co]; split
        · subst_vars; rfl
        · rfl
      · intro x hx ho K hK hn
        simp only [mem_sched, upd_lists, setList_lists, hK, if_false]
        rintro (hx' | hx')
        · exact hn hx'.1
        · exact hnd (hx'.2 ▸ hx)
    | case r k =>
      simp only [Rt.closeLoop]
      by_cases hr : (s.co r).retIdx ≠ -1
      · rw [if_pos hr]
        exact (Mvs.skip h hr).trans (ih (h.tail rfl (fun x _ _ K _ hx => hx)))
      · rw [if_neg hr]
        replace hr := Classical.not_not.mp hr
        refine .trans (t := setList (schedResume _ r) (.chanQ c) q) ?_ (ih (h.tail ?_ ?_))
        · by_cases e : j = r
          · subst e
            have hc := h.ca k List.mem_cons_self
            refine .one (.closeCase c k (by simp [setList_lists]) hc.1 hc.2 hr ⟨by simp [upd, setList], ?_,
              by simp [setList], by simp [setList], by simp [setList], by simp [setList], by simp [lg, setList, upd], by simp [setList]⟩)
            intro x K ho
            rw [setList_lists]
            by_cases hK : K = .chanQ c
            · subst hK
              simp only [if_true, setList_lists, List.mem_cons]
              have hnc : Node.co j ∉ q := fun hq => by have := (h.co (List.mem_cons_of_mem _ hq)).1; rw [hc.1] at this; simp at this
              constructor
              · intro hx; left; refine ⟨.inr hx, ?_⟩
                rintro (hg | hg)
                · exact hnd (hg ▸ hx)
                · exact hnc (hg ▸ hx)
              · rintro (⟨hx | hx, hg⟩ | hx)
                · exact absurd (.inl hx) hg
                · exact hx
                · simp at hx
            · simp only [hK, if_false, mem_sched, upd, setList, true_and]
              constructor
              · rintro (hx | hx)
                · refine .inl ⟨hx.1, ?_⟩
                  rintro (hg | hg)
                  · exact h.dj _ List.mem_cons_self rfl K hK (hg ▸ hx.1)
                  · exact hx.2 hg
                · exact .inr hx.symm
              · rintro (hx | hx)
                · exact .inl ⟨hx.1, fun hg => hx.2 (.inr hg)⟩
                · exact .inr hx.symm
          · refine .same (by simp [upd, setList, e]) ?_ (by simp [setList]) (by simp [setList]) (by simp [setList]) (by simp [setList]) (by simp [lg, setList, upd]) (by simp [setList])
            intro x K ho
            have := owner_ne ho e
            have := owner_ne' (k := k) ho e
            by_cases hK : K = .chanQ c
            · simp [setList_lists, hK, *]
            · simp [setList, upd, hK, mem_sched, *]
        · simp only [schedResume_co, upd]; split
          · subst_vars; rfl
          · rfl
        · intro x hx ho K hK hn
          simp only [mem_sched, upd, setList, hK, if_false]
          rintro (hx' | hx')
          · exact hn hx'.1
          · rw [hx'.2] at ho hx
            have e : r = j := ho
            subst e
            have h1 := (h.ca k List.mem_cons_self).1
            have := (h.co (List.mem_cons_of_mem _ hx)).1
            rw [h1] at this; simp at this

end Neco.Rt
