import Verif.Proof.RtPool
import Verif.Props.RtCancel
import Verif.Props.RtSig
/-!
# Recycled coroutines (C55)
-/
namespace Neco.Rt
open Neco.Err

/-- coroutine `i` is running, ready or blocked -/
def InUse (s : S) (i : Nat) : Prop := Running s i ∨ Ready s i ∨ Blocked s i

theorem inUse_used {ok} {s : S} (r : Reach ok s) {i : Nat} (h : InUse s i) : Used s i := by
  have hw := reach_scoWF r
  have hm : i ∈ s.sco.everybody := by
    unfold InUse Running Ready Blocked at h; unfold Sco.everybody
    rcases h with h | h | h
    · simp [h]
    · rcases h with h | h <;> simp [h]
    · simp [h]
  have hle := hw.perm.mem_iff.1 hm
  rw [List.mem_range'_1] at hle
  refine ⟨by omega, by omega, fun e => ?_⟩
  have hd := ((reach_invD r).dd i).mpr e
  have hn := hw.nodup
  simp only [Sco.everybody, List.nodup_append, List.mem_append] at hn
  have key := fun x hx => hn.2.2 x hx i hd
  rcases h with hx | (hx | hx) | hx
  · exact key i (.inl (.inl (.inl (by have : s.sco.cur = some i := hx; simp [this])))) rfl
  · exact key i (.inl (.inl (.inr hx))) rfl
  · exact key i (.inl (.inr hx)) rfl
  · exact key i (.inr hx) rfl

/-! ## C55 recycled coroutines start fresh -/

/-- no two coroutines in use share a control block, none of the blocks in use is in the pool (where it could be handed out again or given back to the system), and no block is in the pool twice -/
theorem C55_in_use {ok} {s : S} (r : Reach ok s) :
    (∀ i j, InUse s i → InUse s j → (s.co i).blk = (s.co j).blk → i = j) ∧ (∀ p ∈ s.pool, ∀ i, InUse s i → p.1.blk ≠ (s.co i).blk) ∧ (s.pool.map (fun p => p.1.blk)).Nodup :=
  let h := reach_invBk r
  ⟨fun i j hi hj => h.lv i j (inUse_used r hi) (inUse_used r hj), fun p hp i hi => h.pl p hp i (inUse_used r hi), h.nd⟩

/-- a control block given to a new coroutine is the oldest in the pool, or freshly allocated if the pool is empty -/
theorem C55_taken {ok} {s s' : S} {a : Act} (r : Reach ok s) (ha : a = .call .start ∨ a = .call .genStart) (hs : step s a = some s') :
    ∃ k, Running s' k ∧ k ∉ starts s.log ∧
      ((s.pool = [] ∧ s'.pool = [] ∧ ∀ i, InUse s i → (s'.co k).blk ≠ (s.co i).blk) ∨ ∃ p, s.pool = p :: s'.pool ∧ (s'.co k).blk = p.1.blk) := by
  obtain ⟨i, g, hc, hco, _, _, _, _, hsco, _⟩ := start_new ha hs
  refine ⟨s.sco.nextId + 1, by unfold Running; rw [hsco]; unfold Sco.start; rw [hc], fun h => by have := (mem_starts r).mp h; omega, ?_⟩
  have hpool : s'.pool = s.pool.tail := by
    cases step_poolL hs with
    | same hn _ _ => exact absurd ha hn
    | start _ h => exact h
    | fin i x hb => rcases ha with e | e <;> rw [hb] at e <;> cases e
    | rc hb => rcases ha with e | e <;> rw [hb] at e <;> cases e
  rw [hpool, hco]; unfold newCo
  cases e : s.pool with
  | nil => exact .inl ⟨rfl, rfl, fun j hj => by have := (reach_invBk r).le j (inUse_used r hj); simp only; omega⟩
  | cons p q => exact .inr ⟨p, rfl, rfl⟩

/-- when the main loop looks at the pool, exactly the control blocks stay which were first seen there less than 100 ms ago
(those never seen before are stamped now, from the end of the list backwards, as the code does it) -/
theorem C55_idle {ok} {s s' : S} (r : Reach ok s) (hc : s.sco.cur = none) (hm : s.main = .rc) (hs : step s .tau = some s') :
    s'.pool = ((stampBack s.clock s.pool.reverse).reverse).filter (fun e => decide (s.clock - e.2 < 100000000)) := by
  have h := reach_invTs r
  rw [stampBack_eq h.od, ← dropWhile_eq (stamped_od h.rg h.od)]
  unfold step at hs
  split at hs
  · cases hs
  simp only [hc, tauMain, hm] at hs
  cases hs
  rfl

/-- the pool holds no block whose stamp is in the future, and one that has no stamp is not before one that has -/
theorem C55_stamps {ok} {s : S} (r : Reach ok s) : (∀ p ∈ s.pool, 0 ≤ p.2 ∧ p.2 ≤ s.clock) ∧ s.pool.Pairwise (fun a b => b.2 = 0 ∨ (a.2 ≠ 0 ∧ a.2 ≤ b.2)) :=
  let h := reach_invTs r
  ⟨h.rg, h.od⟩

/-- a coroutine that has started no other sees 0 from `neco_lastid`.  (Partial: provided no coroutine is started in the control block of one that had started another, see `C55_lastid_not_general`.) -/
theorem C55_lastid_partial {s : S} (r : Reach NoOldChild s) {i : Nat} {v : Int} {d : Msg} (h : Returns s i .lastid v d) (hk : lastChild i s.log = none) : v = 0 := by
  obtain ⟨s0, s1, es, r0, hc, hs, hpc, _, hl, hn⟩ := imm_returns r h rfl
  have hl1 : s1.log = .call i .lastid :: s0.log := by
    unfold step at hs
    split at hs
    · cases hs
    simp only [hc] at hs
    split at hs <;> cases hs
    rfl
  have hst := reach_startP r
  have hk' : lastChild i (rl s) = none := by unfold rl; rw [lastChild_filter]; exact hk
  have hrl : rl s = es.filter Ev.rare ++ .call i .lastid :: rl s0 := by
    unfold rl; rw [hl, hl1, List.filter_append, List.filter_cons]; rfl
  rw [hrl] at hst hk'
  rw [no_child hst (by simp) (fun e he => hn e (List.mem_filter.mp he).1)] at hk'
  have hi := cur_le (reach_scoWF r0) hc
  have := reach_nochild (fun _ _ h => h) r0 i hi.1 hi.2 hk'
  unfold step at hs
  split at hs
  · cases hs
  simp only [hc] at hs
  split at hs <;> cases hs
  simp only [doCall, pc_retv] at hpc
  cases hpc; simp [upd_co, this]

/-- a coroutine that watches no signal is told so by `neco_signal_wait`.  (Partial: provided no coroutine is started in the control block of one that left watched signals, see `C55_watch_not_general`.) -/
theorem C55_watch_partial {s : S} (r : Reach NoOldWatch s) {i : Nat} {dl v : Int} {d : Msg} {b : List Ev} (h : Returns s i (.sigWait dl) v d) (hb : s.log = since i s.log ++ .call i (.sigWait dl) :: b)
    (hw : ∀ n, watches i n b = false) : v = NOSIGWATCH := by
  obtain ⟨s0, s1, es, fs, r0, e0, hcur, hu, hs, e1, hf0, hf1, hl, hsi, hl1, ho, hr⟩ := returns_from r h hb
  subst e0
  have hi := cur_le (reach_scoWF r0) hcur
  have hz : (s0.co i).sigwatch = 0 := by
    apply Nat.eq_of_testBit_eq
    intro n; rw [watch_iff (fun _ _ h => h) r0 hi.1 hi.2, hw n]; simp
  refine (hr NOSIGWATCH ?_).1
  rw [e1]
  simp [doCall, doSigWait, callSt, upd_co, hz, pc_retv]

/-! ## The theorems are not about nothing -/

/-- `NoOldChild` as a test -/
def noOldChildB (s : S) : Act → Bool
  | .call .start | .call .genStart => match s.pool with | [] => true | p :: _ => p.1.lastid == 0
  | _ => true
theorem noOldChildB_ok {s : S} {a : Act} (h : noOldChildB s a = true) : NoOldChild s a := by
  have key : ∀ p, (match s.pool with | [] => true | p :: _ => p.1.lastid == 0) = true → s.pool.head? = some p → p.1.lastid = 0 := by
    intro p h hp
    cases hq : s.pool with
    | nil => rw [hq] at hp; cases hp
    | cons q qs => rw [hq] at hp h; simp at hp; subst hp; simpa using h
  rintro (rfl | rfl) p hp <;> exact key p h hp

/-- 2 exits, 3 gets its control block; 4 gets a fresh one -/
def plSome : List Sc := [.on 1 (.call .start), .on 2 (.call .exit), .til (turn 1), .raw (.call .start), .on 3 (.call .yield), .on 1 (.call .start)]
example : ∃ s, Reach any s ∧ InUse s 1 ∧ InUse s 3 ∧ InUse s 4 ∧ (s.co 1).blk = 1 ∧ (s.co 3).blk = 2 ∧ (s.co 4).blk = 4 := by
  obtain ⟨s, r, h⟩ := scriptA plSome (p := fun s => decide (s.sco.cur = some 4 ∧ (3 ∈ s.sco.runners ∨ 3 ∈ s.sco.yielders) ∧ (1 ∈ s.sco.runners ∨ 1 ∈ s.sco.yielders) ∧ (s.co 1).blk = 1 ∧ (s.co 3).blk = 2 ∧ (s.co 4).blk = 4)) (by decide +kernel)
  have h := of_decide_eq_true h
  exact ⟨s, r, .inr (.inl h.2.2.1), .inr (.inl h.2.1), .inl h.1, h.2.2.2⟩
/-- two blocks are in the pool: one since more than 100 ms, the other for the first time -/
def plIdle : List Sc := [.on 1 (.call .start), .on 2 (.call .yield), .on 1 (.call .start), .on 3 (.call .exit), .on 1 (.call (.suspend MAX)), .til (fun s => s.main == .ev && s.sco.cur == none), .raw (.clock 7), .raw (.events []), .on 2 (.call .exit),
  .til (fun s => s.main == .ev && s.sco.cur == none), .raw (.clock 100000007), .raw (.events []), .til (fun s => s.main == .rc && s.sco.cur == none)]
example : ∃ s s', Reach any s ∧ s.sco.cur = none ∧ s.main = .rc ∧ step s .tau = some s' ∧ s.pool.map (fun p => (p.1.blk, p.2)) = [(3, 7), (2, 0)] ∧ s'.pool.map (fun p => (p.1.blk, p.2)) = [(2, 100000007)] := by
  obtain ⟨s, r, h⟩ := scriptA plIdle (p := fun s => decide (s.sco.cur = none ∧ s.main = .rc ∧ s.pool.map (fun p => (p.1.blk, p.2)) = [(3, 7), (2, 0)]) && ((step s .tau).any (fun (s' : S) => decide (s'.pool.map (fun p => (p.1.blk, p.2)) = [(2, 100000007)])))) (by decide +kernel)
  simp only [Bool.and_eq_true, Option.any_eq_true] at h
  obtain ⟨h1, s', h2, h3⟩ := h
  have h1 := of_decide_eq_true h1
  exact ⟨s, s', r, h1.1, h1.2.1, h2, h1.2.2, of_decide_eq_true h3⟩
example : ∃ s, Reach NoOldChild s ∧ Returns s 3 .lastid 0 0 ∧ lastChild 3 s.log = none ∧ (s.co 3).blk = 2 := by
  obtain ⟨s, r, h⟩ := scriptW (ok := NoOldChild) (okB := noOldChildB) (fun s a h => noOldChildB_ok h) (a := false) (e := true) (l := [.on 1 (.call .start), .on 2 (.call .exit), .til (turn 1), .raw (.call .start), .on 3 (.call .lastid)])
    (p := fun s => returnsB s 3 .lastid 0 0 && decide (lastChild 3 s.log = none ∧ (s.co 3).blk = 2)) (by decide +kernel)
  simp only [Bool.and_eq_true] at h
  exact ⟨s, r, returnsB_iff.mp h.1, of_decide_eq_true h.2⟩
example : ∃ s b, Reach NoOldWatch s ∧ Returns s 1 (.sigWait MAX) NOSIGWATCH 0 ∧ s.log = since 1 s.log ++ .call 1 (.sigWait MAX) :: b ∧ ∀ n, watches 1 n b = false := by
  obtain ⟨s, r, h⟩ := scriptW (ok := NoOldWatch) (okB := noOldWatchB) (fun s a h => noOldWatchB_ok h) (a := false) (e := true) (l := [.on 1 (.call (.sigWait MAX))])
    (p := fun s => returnsB s 1 (.sigWait MAX) NOSIGWATCH 0 && decide (s.log = since 1 s.log ++ .call 1 (.sigWait MAX) :: [.start none 1])) (by decide +kernel)
  simp only [Bool.and_eq_true] at h
  exact ⟨s, _, r, returnsB_iff.mp h.1, of_decide_eq_true h.2, fun n => rfl⟩

/-- **False of the code**: a coroutine that started no other sees the child of the coroutine that used its control block before -/
theorem C55_lastid_not_general : ¬ ∀ (s : S) (i : Nat) (v : Int) (d : Msg), Reach Clean s → Returns s i .lastid v d → lastChild i s.log = none → v = 0 := by
  intro h
  obtain ⟨s, r, hp⟩ := scriptC [.on 1 (.call .start), .on 2 (.call .start), .on 3 (.call .exit), .on 2 (.call .exit), .til (turn 1), .raw (.call .start), .on 4 (.call .yield), .on 1 (.call .start), .on 5 (.call .lastid)]
    (p := fun s => returnsB s 5 .lastid 3 0 && decide (lastChild 5 s.log = none)) (by decide +kernel)
  simp only [Bool.and_eq_true] at hp
  exact absurd (h s 5 3 0 r (returnsB_iff.mp hp.1) (of_decide_eq_true hp.2)) (by decide)

/-- **False of the code**: a coroutine that watches no signal waits for those watched by the coroutine that used its control block before -/
theorem C55_watch_not_general : ¬ ∀ (s s' : S) (i : Nat) (dl : Int), Reach Clean s → Running s i → (∀ n, watches i n s.log = false) → step s (.call (.sigWait dl)) = some s' → ¬ Blocked s' i := by
  intro h
  obtain ⟨s, r, hp⟩ := scriptC [.on 1 (.call .start), .on 2 (.call (.sigWatch 2)), .on 2 (.call .exit), .til (turn 1), .raw (.call .start)]
    (p := fun s => decide (s.sco.cur = some 3 ∧ s.log.all (fun e => (List.range 32).all (fun n => decide (e ≠ .call 3 (.sigWatch n))))) && ((step s (.call (.sigWait MAX))).any (fun (s' : S) => decide (3 ∈ s'.sco.paused)))) (by decide +kernel)
  simp only [Bool.and_eq_true, Option.any_eq_true] at hp
  obtain ⟨h1, s', h2, h3⟩ := hp
  have h1 := of_decide_eq_true h1
  refine h s s' 3 MAX r h1.1 (fun n => ?_) h2 (of_decide_eq_true (p := 3 ∈ s'.sco.paused) h3)
  have h4 := h1.2
  generalize s.log = l at h4
  induction l with
  | nil => rfl
  | cons e l ih =>
    simp only [List.all_cons, Bool.and_eq_true] at h4
    have he := h4.1; simp only [List.all_eq_true, List.mem_range, decide_eq_true_eq] at he
    have ih := ih h4.2
    by_cases hx : ∃ m, e = .call 3 (.sigWatch m) ∧ m = n ∧ 1 ≤ n ∧ n ≤ 31
    · obtain ⟨m, rfl, rfl, _, _⟩ := hx
      exact absurd rfl (he _ (by omega))
    · unfold watches
      split
      · rfl
      · rename_i k m l' e'
        injection e' with e1 e2; subst e1 e2
        rw [if_neg (fun hy => hx ⟨m, by rw [hy.1], hy.2⟩)]; exact ih
      · rename_i k m l' e'
        injection e' with e1 e2; subst e1 e2
        split
        · rfl
        · exact ih
      · rename_i e' ; injection e' with e1 e2; subst e1 e2; exact ih

end Neco.Rt
