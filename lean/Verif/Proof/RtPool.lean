import Verif.Proof.RtSig2
/-!
# The pool of control blocks
-/
namespace Neco.Rt
open Neco.Err

/-- what a step does to the pool -/
inductive PoolStep (s : S) (a : Act) (s' : S) : Prop
  | same (hn : ¬ (a = .call .start ∨ a = .call .genStart)) (hl : ∀ i, s.sco.cur = some i → ∀ x, (s.co i).pc = .go (.fin x) → a ≠ .tau) (h : s'.pool = s.pool)
  | start (ha : a = .call .start ∨ a = .call .genStart) (h : s'.pool = s.pool.tail)
  | fin (i : Nat) (x : Bool) (ha : a = .tau) (hc : s.sco.cur = some i) (hp : (s.co i).pc = .go (.fin x)) (h : s'.pool = s.pool ++ [(s.co i, 0)]) (hd : (s'.co i).pc = .dead)
  | rc (ha : a = .tau) (hc : s.sco.cur = none) (hm : s.main = .rc) (h : s' = { mRc s with main := .go })

theorem step_poolL {s s' : S} {a : Act} (hs : step s a = some s') : PoolStep s a s' := by
  have hs0 := hs
  unfold step at hs
  split at hs
  · cases hs
  cases a with
  | call c =>
    simp only at hs
    split at hs
    · cases hs
    split at hs <;> cases hs
    rename_i i hc hu
    by_cases hst : c = .start ∨ c = .genStart
    · rcases hst with rfl | rfl
      · exact .start (.inl rfl) rfl
      · exact .start (.inr rfl) rfl
    · refine .same (by simpa using hst) (by simp) ?_
      cases c <;> first | (exact absurd (.inl rfl) hst) | (exact absurd (.inr rfl) hst) | (simp only [doCall]; (repeat' split) <;> simp)
  | finish =>
    simp only at hs; (repeat' split at hs) <;> cases hs
    exact .same (by simp) (by simp) (by simp)
  | tau =>
    simp only at hs
    split at hs
    · rename_i i hc
      by_cases hp : ∃ x, (s.co i).pc = .go (.fin x)
      · obtain ⟨x, hp⟩ := hp
        unfold tauCo at hs; rw [hp] at hs; cases hs
        exact .fin i x rfl hc hp (by simp [doAft, doFin]) (by simp [doAft, doFin, setPc_co])
      · rcases tauCo_pool hs with h | ⟨x, h1, h2⟩
        · exact .same (by simp) (fun j hj x hx => by rw [hc] at hj; cases hj; exact absurd ⟨x, hx⟩ hp) h
        · exact absurd ⟨x, h1⟩ hp
    · rename_i hc
      have nl : ∀ i, s.sco.cur = some i → ∀ x, (s.co i).pc = .go (.fin x) → Act.tau ≠ .tau := fun i hi => by rw [hc] at hi; cases hi
      unfold tauMain at hs
      split at hs
      · (repeat' split at hs) <;> cases hs <;> exact .same (by simp) nl (by simp)
      · cases hs; exact .same (by simp) nl (by simp)
      · cases hs
      · cases hs; exact .same (by simp) nl (by simp)
      · cases hs; exact .same (by simp) nl (by simp)
      · cases hs; exact .rc rfl hc (by assumption) rfl
      · cases hs; exact .same (by simp) nl rfl
      · cases hs
  | submit ok => simp only at hs; (repeat' split at hs) <;> cases hs <;> exact .same (by simp) (by simp) (by simp)
  | events evs => simp only at hs; split at hs <;> cases hs; refine .same (by simp) (by simp) ?_; simp only; split <;> simp
  | clock t => simp only at hs; split at hs <;> cases hs; exact .same (by simp) (by simp) rfl
  | signal n => simp only at hs; (repeat' split at hs) <;> cases hs <;> exact .same (by simp) (by simp) rfl
  | wdone i => simp only at hs; (repeat' split at hs) <;> cases hs; exact .same (by simp) (by simp) (by simp)

/-! ## Which control block belongs to whom -/

theorem blk_stat {k k' : Co} (h : stat k = stat k') : k.blk = k'.blk := by simp only [stat, Prod.mk.injEq] at h; exact h.2.2.2.2.2.2.2.2

/-- a coroutine keeps its control block -/
theorem step_blk {ok} {s s' : S} {a : Act} (r : Reach ok s) (hs : step s a = some s') {j : Nat} (hn : ¬ ((a = .call .start ∨ a = .call .genStart) ∧ j = s.sco.nextId + 1)) : (s'.co j).blk = (s.co j).blk := by
  cases step_stat (reach_scoWF r) hs j with
  | same h _ => exact blk_stat h
  | call c ha hc hp h => rw [blk_stat h]; cases c <;> simp only [callStat] <;> (repeat' split) <;> rfl
  | new i g ha hi hj h => exact absurd ⟨ha.elim (fun h => .inl h.1) (fun h => .inr h.1), hj⟩ hn
  | ret v ha hc hp h => exact (blk_stat h).trans rfl
  | clean x q ha hc hp hq h => exact (blk_stat h).trans rfl
  | genRel x y ha hc hp h => exact (blk_stat h).trans rfl

/-- the dead stay dead -/
theorem step_dead {ok} {s s' : S} {a : Act} (r : Reach ok s) (hs : step s a = some s') {j : Nat} (hn : ¬ ((a = .call .start ∨ a = .call .genStart) ∧ j = s.sco.nextId + 1)) (h : (s.co j).pc = .dead) : (s'.co j).pc = .dead := by
  have hc : s.sco.cur ≠ some j := fun e => cur_not_dead r e h
  have := (step_other (reach_invL r) (reach_invC r) hs hc (fun ha e => hn ⟨ha, e⟩) (((reach_invF r).cf j).evU)).pc.1
  rw [this]; exact h

/-- started and not over -/
def Used (s : S) (j : Nat) : Prop := 1 ≤ j ∧ j ≤ s.sco.nextId ∧ (s.co j).pc ≠ .dead

structure InvBk (s : S) : Prop where
  lv : ∀ i j, Used s i → Used s j → (s.co i).blk = (s.co j).blk → i = j
  pl : ∀ p ∈ s.pool, ∀ i, Used s i → p.1.blk ≠ (s.co i).blk
  nd : (s.pool.map (fun p => p.1.blk)).Nodup
  le : ∀ i, Used s i → (s.co i).blk ≤ s.sco.nextId
  ple : ∀ p ∈ s.pool, p.1.blk ≤ s.sco.nextId

theorem nodup_dropWhile {α : Type} {p : α → Bool} : ∀ {l : List α}, l.Nodup → (l.dropWhile p).Nodup := by
  intro l h
  exact h.sublist (List.dropWhile_sublist p)

theorem InvBk.pres {ok} {s s' : S} {a : Act} (h : InvBk s) (r : Reach ok s) (hs : Rt.step s a = some s') : InvBk s' := by
  have hnx := nx_step hs (reach_invA r)
  have hP := step_poolL hs
  by_cases hst : a = .call .start ∨ a = .call .genStart
  · rw [if_pos hst] at hnx
    obtain ⟨i, g, hc, hco, _⟩ := start_new hst hs
    have hpool : s'.pool = s.pool.tail := by
      cases hP with
      | same hn _ _ => exact absurd hst hn
      | start _ h => exact h
      | fin i x ha => rcases hst with e | e <;> rw [ha] at e <;> cases e
      | rc ha => rcases hst with e | e <;> rw [ha] at e <;> cases e
    have old : ∀ {j}, j ≠ s.sco.nextId + 1 → Used s' j → Used s j ∧ (s'.co j).blk = (s.co j).blk := by
      rintro j hj ⟨h1, h2, h3⟩
      have hn : ¬ ((a = .call .start ∨ a = .call .genStart) ∧ j = s.sco.nextId + 1) := fun e => hj e.2
      exact ⟨⟨h1, by omega, fun e => h3 (step_dead r hs hn e)⟩, step_blk r hs hn⟩
    -- the block of the new one
    have hnew : (∃ p, s.pool = p :: s.pool.tail ∧ (s'.co (s.sco.nextId + 1)).blk = p.1.blk) ∨ (s.pool = [] ∧ (s'.co (s.sco.nextId + 1)).blk = s.sco.nextId + 1) := by
      rw [hco]; unfold newCo
      cases e : s.pool with
      | nil => exact .inr ⟨rfl, rfl⟩
      | cons p q => exact .inl ⟨p, rfl, rfl⟩
    have hneq : ∀ j, Used s j → (s'.co (s.sco.nextId + 1)).blk ≠ (s.co j).blk := by
      intro j hj
      rcases hnew with ⟨p, e, hb⟩ | ⟨e, hb⟩
      · rw [hb]; exact h.pl p (by rw [e]; exact .head _) j hj
      · rw [hb]; have := h.le j hj; omega
    constructor
    · intro x y hx hy he
      by_cases ex : x = s.sco.nextId + 1 <;> by_cases ey : y = s.sco.nextId + 1
      · omega
      · subst ex; obtain ⟨hy, e⟩ := old ey hy; rw [e] at he; exact absurd he (hneq y hy)
      · subst ey; obtain ⟨hx, e⟩ := old ex hx; rw [e] at he; exact absurd he.symm (hneq x hx)
      · obtain ⟨hx, e1⟩ := old ex hx; obtain ⟨hy, e2⟩ := old ey hy
        rw [e1, e2] at he; exact h.lv x y hx hy he
    · intro p hp x hx
      rw [hpool] at hp
      by_cases ex : x = s.sco.nextId + 1
      · subst ex
        rcases hnew with ⟨q, e, hb⟩ | ⟨e, _⟩
        · rw [hb]
          have hnd := h.nd; rw [e, List.map_cons, List.nodup_cons] at hnd
          intro e2; exact hnd.1 (List.mem_map.mpr ⟨p, hp, e2⟩)
        · rw [e] at hp; cases hp
      · obtain ⟨hx, e⟩ := old ex hx
        rw [e]; exact h.pl p (List.mem_of_mem_tail hp) x hx
    · rw [hpool, List.map_tail]; exact h.nd.sublist (List.tail_sublist _)
    · intro x hx
      by_cases ex : x = s.sco.nextId + 1
      · subst ex
        rcases hnew with ⟨q, e, hb⟩ | ⟨_, hb⟩
        · rw [hb]; have := h.ple q (by rw [e]; exact .head _); omega
        · omega
      · obtain ⟨hx, e⟩ := old ex hx; rw [e]; have := h.le x hx; omega
    · intro p hp; rw [hpool] at hp; have := h.ple p (List.mem_of_mem_tail hp); omega
  · rw [if_neg hst] at hnx
    have old : ∀ {j}, Used s' j → Used s j ∧ (s'.co j).blk = (s.co j).blk := by
      rintro j ⟨h1, h2, h3⟩
      have hn : ¬ ((a = .call .start ∨ a = .call .genStart) ∧ j = s.sco.nextId + 1) := fun e => hst e.1
      exact ⟨⟨h1, by omega, fun e => h3 (step_dead r hs hn e)⟩, step_blk r hs hn⟩
    refine ⟨fun x y hx hy he => ?_, ?_, ?_, fun x hx => ?_, ?_⟩
    · obtain ⟨hx, e1⟩ := old hx; obtain ⟨hy, e2⟩ := old hy
      rw [e1, e2] at he; exact h.lv x y hx hy he
    · intro p hp x hx
      obtain ⟨hx0, e⟩ := old hx
      rw [e]
      cases hP with
      | same _ _ e2 => rw [e2] at hp; exact h.pl p hp x hx0
      | start ha _ => exact absurd ha hst
      | fin i y _ hc hpc e2 hd =>
        rw [e2, List.mem_append, List.mem_singleton] at hp
        rcases hp with hp | rfl
        · exact h.pl p hp x hx0
        · intro e3
          have hi := cur_le (reach_scoWF r) hc
          have := h.lv i x ⟨hi.1, hi.2, by rw [hpc]; simp⟩ hx0 e3
          subst this; exact hx.2.2 hd
      | rc _ _ _ e2 =>
        rw [e2] at hp
        obtain ⟨q, hq, e3⟩ := mem_mRc hp
        rw [← e3]; exact h.pl q hq x hx0
    · cases hP with
      | same _ _ e2 => rw [e2]; exact h.nd
      | start ha _ => exact absurd ha hst
      | fin i y _ hc hpc e2 hd =>
        rw [e2, List.map_append, List.nodup_append]
        refine ⟨h.nd, by simp, fun b hb c hc' => ?_⟩
        simp at hc'; subst hc'
        obtain ⟨p, hp, rfl⟩ := List.mem_map.mp hb
        have hi := cur_le (reach_scoWF r) hc
        exact h.pl p hp i ⟨hi.1, hi.2, by rw [hpc]; simp⟩
      | rc _ _ _ e2 =>
        rw [e2]
        refine List.Nodup.sublist ((List.dropWhile_sublist _).map _) ?_
        rw [List.map_map]
        have : ((fun p : Co × Int => p.1.blk) ∘ fun e : Co × Int => if e.2 = 0 then (e.1, s.clock) else e) = fun p => p.1.blk := by
          funext e; simp only [Function.comp]; split <;> rfl
        rw [this]; exact h.nd
    · obtain ⟨hx, e⟩ := old hx; rw [e, hnx]; exact h.le x hx
    · intro p hp
      rw [hnx]
      cases hP with
      | same _ _ e2 => rw [e2] at hp; exact h.ple p hp
      | start ha _ => exact absurd ha hst
      | fin i y _ hc hpc e2 hd =>
        rw [e2, List.mem_append, List.mem_singleton] at hp
        rcases hp with hp | rfl
        · exact h.ple p hp
        · have hi := cur_le (reach_scoWF r) hc
          exact h.le i ⟨hi.1, hi.2, by rw [hpc]; simp⟩
      | rc _ _ _ e2 =>
        rw [e2] at hp
        obtain ⟨q, hq, e3⟩ := mem_mRc hp
        rw [← e3]; exact h.ple q hq

theorem reach_invBk {ok} {s : S} (r : Reach ok s) : InvBk s := by
  induction r with
  | init a e =>
    have h1 : ∀ j, Used (init a e) j → j = 1 := by rintro j ⟨h1, h2, _⟩; simp [init, Sco.start] at h2; omega
    refine ⟨fun i j hi hj _ => by rw [h1 i hi, h1 j hj], fun p hp => by simp [init] at hp, by simp [init], fun i hi => ?_, fun p hp => by simp [init] at hp⟩
    rw [h1 i hi]; simp [init, Sco.start]
  | @step s s' r a hok hs ih => exact ih.pres r hs

/-! ## Time stamps -/

/-- later entries were pooled later: not yet stamped ones come last, the others in order of their stamps -/
def Older (a b : Co × Int) : Prop := b.2 = 0 ∨ (a.2 ≠ 0 ∧ a.2 ≤ b.2)

structure InvTs (s : S) : Prop where
  ck : 0 ≤ s.clock
  rg : ∀ p ∈ s.pool, 0 ≤ p.2 ∧ p.2 ≤ s.clock
  od : s.pool.Pairwise Older

theorem tauCo_clock {s s' : S} {i : Nat} (hs : tauCo s i = some s') : s'.clock = s.clock := by
  have hb : ∀ (s : S) (i : Nat) (b : Blk), (afterBlk s i b).clock = s.clock := by
    intro s i b; cases b <;> simp only [afterBlk] <;> (repeat' split) <;> simp
  unfold tauCo at hs
  split at hs <;> (repeat' split at hs) <;> cases hs <;> simp [hb]

theorem step_clock {s s' : S} {a : Act} (hs : step s a = some s') : s.clock ≤ s'.clock ∧ ((∀ t, a ≠ .clock t) → s'.clock = s.clock) := by
  have key : (∀ t, a ≠ .clock t) → s'.clock = s.clock := by
    intro hc
    unfold step at hs
    split at hs
    · cases hs
    cases a with
    | call c =>
      simp only at hs; (repeat' split at hs) <;> cases hs
      cases c <;> (simp only [doCall]; (repeat' split) <;> simp)
    | finish => simp only at hs; (repeat' split at hs) <;> cases hs; simp
    | tau =>
      simp only at hs
      split at hs
      · exact tauCo_clock hs
      · unfold tauMain at hs
        (repeat' split at hs) <;> cases hs <;> simp
    | submit ok => simp only at hs; (repeat' split at hs) <;> cases hs <;> simp
    | events evs => simp only at hs; split at hs <;> cases hs; simp only; split <;> simp
    | clock t => exact absurd rfl (hc t)
    | signal n => simp only at hs; (repeat' split at hs) <;> cases hs <;> rfl
    | wdone i => simp only at hs; (repeat' split at hs) <;> cases hs; simp
  refine ⟨?_, key⟩
  by_cases hc : ∃ t, a = .clock t
  · obtain ⟨t, rfl⟩ := hc
    unfold step at hs
    split at hs
    · cases hs
    simp only at hs; split at hs <;> cases hs
    assumption
  · rw [key (fun t e => hc ⟨t, e⟩)]; exact Int.le_refl _

/-- give the stamp `now` to those that have none -/
def stamped (now : Int) (q : List (Co × Int)) : List (Co × Int) := q.map (fun e => if e.2 = 0 then (e.1, now) else e)

theorem stamped_od {now : Int} {q : List (Co × Int)} (h1 : ∀ p ∈ q, 0 ≤ p.2 ∧ p.2 ≤ now) (h2 : q.Pairwise Older) : (stamped now q).Pairwise (fun a b => a.2 ≤ b.2 ∧ (a.2 = 0 → b.2 = 0)) := by
  unfold stamped
  rw [List.pairwise_map]
  refine (List.Pairwise.and_mem.mp h2).imp ?_
  rintro ⟨a, x⟩ ⟨b, y⟩ ⟨ha, hb, h⟩
  have ha := h1 _ ha; have hb := h1 _ hb
  simp only [Older] at h ha hb ⊢
  split <;> split <;> simp <;> omega

theorem dropWhile_eq {q : List (Co × Int)} {now : Int} (h : q.Pairwise (fun a b => a.2 ≤ b.2 ∧ (a.2 = 0 → b.2 = 0))) :
    q.dropWhile (fun e => !decide (now - e.2 < 100000000)) = q.filter (fun e => decide (now - e.2 < 100000000)) := by
  induction q with
  | nil => rfl
  | cons e q ih =>
    rw [List.pairwise_cons] at h
    rw [List.dropWhile_cons, List.filter_cons]
    by_cases hd : now - e.2 < 100000000
    · rw [if_neg (by simp [hd]), if_pos (by simp [hd])]
      congr 1
      rw [eq_comm, List.filter_eq_self]
      intro f hf
      have := (h.1 f hf).1
      simp; omega
    · rw [if_pos (by simp [hd]), if_neg (by simp [hd])]; exact ih h.2

theorem InvTs.pres {ok} {s s' : S} {a : Act} (h : InvTs s) (r : Reach ok s) (hs : Rt.step s a = some s') : InvTs s' := by
  obtain ⟨hc, _⟩ := step_clock hs
  refine ⟨by have := h.ck; omega, ?_, ?_⟩
  · intro p hp
    have hold : ∀ q ∈ s.pool, 0 ≤ q.2 ∧ q.2 ≤ s'.clock := fun q hq => by have := h.rg q hq; omega
    cases step_poolL hs with
    | same _ _ e => rw [e] at hp; exact hold p hp
    | start _ e => rw [e] at hp; exact hold p (List.mem_of_mem_tail hp)
    | fin i x _ _ _ e _ =>
      rw [e, List.mem_append, List.mem_singleton] at hp
      rcases hp with hp | rfl
      · exact hold p hp
      · have := h.ck; simp only; omega
    | rc _ _ _ e =>
      rw [e] at hp
      have hp := mem_dropWhile hp
      rw [List.mem_map] at hp
      obtain ⟨q, hq, rfl⟩ := hp
      have := h.rg q hq; have := h.ck
      split
      · simp only; omega
      · exact hold q hq
  · cases step_poolL hs with
    | same _ _ e => rw [e]; exact h.od
    | start _ e => rw [e]; exact h.od.sublist (List.tail_sublist _)
    | fin i x _ _ _ e _ =>
      rw [e, List.pairwise_append]
      exact ⟨h.od, by simp, fun a _ b hb => by simp at hb; subst hb; exact .inl rfl⟩
    | rc _ _ _ e =>
      rw [e]
      refine List.Pairwise.sublist (List.dropWhile_sublist _) ?_
      refine (stamped_od h.rg h.od).imp ?_
      rintro a b ⟨h1, h2⟩
      unfold Older
      by_cases e : a.2 = 0
      · exact .inl (h2 e)
      · exact .inr ⟨e, h1⟩

theorem reach_invTs {ok} {s : S} (r : Reach ok s) : InvTs s := by
  induction r with
  | init a e => exact ⟨by simp [init], fun p hp => by simp [init] at hp, by simp [init]⟩
  | @step s s' r a hok hs ih => exact ih.pres r hs

/-- the stamping loop of `rt_rc_step` as it is written: from the last entry backwards while there is no stamp, neco.c 4255-4259 -/
def stampBack (now : Int) : List (Co × Int) → List (Co × Int)
  | [] => []
  | e :: q => if e.2 = 0 then (e.1, now) :: stampBack now q else e :: q

theorem stampBack_eq {now : Int} : ∀ {q : List (Co × Int)}, q.Pairwise Older → (stampBack now q.reverse).reverse = stamped now q := by
  have key : ∀ {l : List (Co × Int)}, l.Pairwise (fun b a => Older a b) → stampBack now l = stamped now l := by
    intro l
    induction l with
    | nil => intro _; rfl
    | cons e l ih =>
      intro h
      rw [List.pairwise_cons] at h
      unfold stampBack stamped
      by_cases he : e.2 = 0
      · rw [if_pos he, ih h.2, List.map_cons, if_pos he]; rfl
      · rw [if_neg he, List.map_cons, if_neg he]
        congr 1
        rw [eq_comm]
        conv => rhs; rw [← List.map_id l]
        refine List.map_congr_left (fun f hf => ?_)
        have := h.1 f hf
        unfold Older at this
        have : f.2 ≠ 0 := by rcases this with h | h; exact absurd h he; exact h.1
        rw [if_neg this]; rfl
  intro q h
  rw [key (List.pairwise_reverse.mpr h)]
  unfold stamped
  rw [← List.map_reverse, List.reverse_reverse]

/-! ## No child yet -/

/-- no coroutine is started in a control block in which an earlier one left the identifier of its last child -/
def NoOldChild (s : S) (a : Act) : Prop := a = .call .start ∨ a = .call .genStart → ∀ p, s.pool.head? = some p → p.1.lastid = 0

theorem lastid_stat {k k' : Co} (h : stat k = stat k') : k.lastid = k'.lastid := by simp only [stat, Prod.mk.injEq] at h; exact h.2.2.1

theorem reach_nochild {ok} (hk : ∀ s a, ok s a → NoOldChild s a) {s : S} (r : Reach ok s) (j : Nat) (h1 : 1 ≤ j) (h2 : j ≤ s.sco.nextId) (hl : lastChild j (rl s) = none) : (s.co j).lastid = 0 := by
  induction r with
  | init a e => simp [init, Sco.start] at h2; have : j = 1 := by omega
                subst this; simp [init]
  | @step s s' r a hok hs ih =>
    by_cases hst : a = .call .start ∨ a = .call .genStart
    · obtain ⟨i, g, hc, hco, _, _, _, _, _, hlog, _⟩ := start_new hst hs
      by_cases hj : j = s.sco.nextId + 1
      · subst hj; rw [hco]; unfold newCo
        cases e : s.pool with
        | nil => rfl
        | cons p q => exact hk s a hok hst p (by rw [e]; rfl)
      · have hle : j ≤ s.sco.nextId := old_id r hs h2 (fun e => hj e.2)
        have hl0 : lastChild j s.log = none ∧ i ≠ j := by
          have : lastChild j s'.log = none := by rw [← lastChild_filter]; exact hl
          rcases hlog with e | e <;> rw [e] at this <;> simp only [lastChild] at this <;> split at this <;> first | (cases this; done) | exact ⟨this, by assumption⟩
        have ih := ih hle (by unfold rl; rw [lastChild_filter]; exact hl0.1)
        rw [← ih]
        cases step_stat (reach_scoWF r) hs j with
        | same h _ => exact lastid_stat h
        | call c ha hc' hp h => rw [hc] at hc'; cases hc'; exact absurd rfl hl0.2
        | new i g ha hi hj' h => exact absurd hj' hj
        | ret v ha hc hp h => exact (lastid_stat h).trans rfl
        | clean x q ha hc hp hq h => exact (lastid_stat h).trans rfl
        | genRel x y ha hc hp h => exact (lastid_stat h).trans rfl
    · have hle : j ≤ s.sco.nextId := old_id r hs h2 (fun e => hst e.1)
      have hl0 : lastChild j (rl s) = none := by
        have hA := (reach_invA r)
        obtain ⟨es, e1, e2⟩ := step_rl hs
        rw [e1] at hl
        have : ∀ es : List Ev, lastChild j (es ++ rl s) = none → lastChild j (rl s) = none := by
          intro es
          induction es with
          | nil => intro h; exact h
          | cons e es ih =>
            intro h
            cases e <;> simp only [List.cons_append, lastChild] at h <;> try exact ih h
            rename_i p k
            cases p <;> simp only [lastChild] at h
            · exact ih h
            · split at h
              · cases h
              · exact ih h
        exact this es hl
      have ih := ih hle hl0
      rw [← ih]
      cases step_stat (reach_scoWF r) hs j with
      | same h _ => exact lastid_stat h
      | call c ha hc' hp h =>
        rw [lastid_stat h]
        cases c
        case start => exact absurd (.inl ha) hst
        case genStart => exact absurd (.inr ha) hst
        all_goals simp only [callStat]
        all_goals (repeat' split) <;> rfl
      | new i g ha hi hj' h => exact absurd (ha.elim (fun h => .inl h.1) (fun h => .inr h.1)) hst
      | ret v ha hc hp h => exact (lastid_stat h).trans rfl
      | clean x q ha hc hp hq h => exact (lastid_stat h).trans rfl
      | genRel x y ha hc hp h => exact (lastid_stat h).trans rfl

end Neco.Rt
