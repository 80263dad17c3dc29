import Verif.Proof.RtTurn2
import Verif.Proof.RtPool
import Verif.Props.RtWait
import Verif.Props.RtLife
/-!
# Whoever is to be woken, and whoever's deadline has passed, is run soon
-/
namespace Neco.Rt
open Neco.Err Sco

theorem Later.reachA {s t : S} (r : Reach any s) (l : Later s t) : Reach any t := by
  induction l with
  | refl => exact r
  | step h hs ih => exact .step ih _ trivial hs

theorem Wt.mem {E} {s : S} {x k : Nat} (h : Wt E x k s) : (x ∈ s.sco.runners ∨ x ∈ s.sco.yielders) ∨ x ∈ s.sco.paused := by
  cases h with
  | ready h =>
    obtain ⟨k', h, _⟩ := h
    left
    cases h with
    | runner h => left; rw [h]; simp
    | yielder h => right; rw [h]; simp
  | early hp _ _ => exact .inr hp
  | late hp _ => exact .inr hp

theorem Wt.idle {E} {s : S} {x k : Nat} (hw : WF s.sco) (h : Wt E x k s) : s.sco.cur ≠ some x := by
  intro hc
  have hn := hw.nodup
  simp only [Sco.everybody, List.nodup_append, List.mem_append, hc, Option.toList, List.mem_singleton] at hn
  rcases h.mem with (h | h) | h
  · exact hn.1.1.1.2.2 x rfl x h rfl
  · exact hn.1.1.2.2 x (.inl rfl) x h rfl
  · exact hn.1.2.2 x (.inl (.inl rfl)) x h rfl

theorem Wt.le {E} {s : S} {x k : Nat} (hw : WF s.sco) (h : Wt E x k s) : x ≤ s.sco.nextId := by
  have : x ∈ s.sco.everybody := by
    unfold Sco.everybody
    rcases h.mem with (h | h) | h <;> simp [h]
  have := hw.perm.mem_iff.1 this
  rw [List.mem_range'_1] at this; omega

theorem Wt.other {s s' : S} {a : Act} {E} {x k : Nat} (r : Reach any s) (h : Wt E x k s) (hs : step s a = some s') : Mvs x s s' :=
  step_other (reach_invL r) (reach_invC r) hs (h.idle (reach_scoWF r)) (fun _ e => by have := h.le (reach_scoWF r); omega) (((reach_invF r).cf x).evU)

theorem Mvs.was_paused {j : Nat} {s t : S} (h : Mvs j s t) : j ∈ t.sco.paused → j ∈ s.sco.paused := by
  induction h with
  | refl => exact id
  | head a _ ih =>
    intro h
    have := ih h
    cases a <;> first
      | (rename_i hh; exact (hh.pz.mp this).1)
      | (rename_i pz _ _ _ _ _; exact pz.mp this)

/-- whoever is in the list of the main loop stays there until it is made ready -/
theorem Mvs.waking {j : Nat} {s t : S} (h : Mvs j s t) (hj : j ∉ s.jobs) (hn : .co j ∈ s.lists .resumers) (hp : j ∈ t.sco.paused) :
    .co j ∈ t.lists .resumers ∧ j ∉ t.jobs := by
  induction h with
  | refl => exact ⟨hn, hj⟩
  | @head s u t a b ih =>
    have hu : j ∈ u.sco.paused := b.was_paused hp
    have jb : ∀ {f es g r p}, Dlt j f es g r p s u → j ∉ u.jobs := by
      intro f es g r p h
      have := h.jb
      rw [List.count_eq_zero_of_not_mem hj] at this
      exact List.count_eq_zero.mp this
    have up : ∀ {f es g r}, Dlt j f es g r true s u → False := fun h => by have := (h.pz.mp hu).2; cases this
    have rs : ∀ {f es g p}, Dlt j f es g true p s u → .co j ∈ u.lists .resumers := fun h => (h.mem _ _ rfl).mpr (.inr ⟨rfl, rfl, rfl⟩)
    cases a with
    | same h => exact ih (jb h) ((h.mem _ _ rfl).mpr (.inl ⟨hn, id⟩)) hp
    | take c m _ _ _ h => exact (up h).elim
    | takeCase c m k _ _ _ _ h => exact (up h).elim
    | bcast c m _ _ _ h => exact ih (jb h) (rs h) hp
    | bcastCase c m k _ _ _ _ h => exact ih (jb h) (rs h) hp
    | close c _ _ _ h => exact ih (jb h) (rs h) hp
    | closeCase c k _ _ _ _ h => exact ih (jb h) (rs h) hp
    | skip g _ hg h => exact ih (jb h) ((h.mem _ _ rfl).mpr (.inl ⟨hn, fun e => by obtain ⟨k, e⟩ := hg _ _ e; cases e⟩)) hp
    | sent c _ _ _ h => exact (up h).elim
    | grant m rd _ _ h => exact ih (jb h) (rs h) hp
    | wake L now _ _ h =>
      cases now with
      | true => exact (up h).elim
      | false => exact ih (jb h) (rs h) hp
    | resumed i _ h => exact (up h).elim
    | canceled i _ h => exact (up h).elim
    | fromRes _ h => exact (up h).elim
    | fromIo _ h => exact (up h).elim
    | ready fd w es _ _ _ h => exact (up h).elim
    | sigTo n _ _ h => exact (up h).elim
    | deadlined _ _ h => exact (up h).elim
    | wdone hj' => exact absurd hj' hj

/-- leaving the top of the main loop means that the waiting list was emptied -/
theorem top_tau {s s' : S} {a : Act} (hs : step s a = some s') (hc : s.sco.cur = none) (hm : s.main ≠ .ev) (hm' : s'.main ≠ s.main) : a = .tau := by
  unfold step at hs
  split at hs
  · cases hs
  cases a with
  | tau => rfl
  | call c => simp [hc] at hs
  | finish => simp [hc] at hs
  | submit ok => simp [hc] at hs
  | events evs => simp [hm] at hs
  | clock t => simp only at hs; split at hs <;> cases hs; exact absurd rfl hm'
  | signal n => simp only at hs; (repeat' split at hs) <;> cases hs <;> exact absurd rfl hm'
  | wdone i => simp only at hs; split at hs <;> cases hs; exact absurd rfl hm'

theorem ready_not_paused {s : S} (hw : WF s.sco) {x : Nat} (h : Ready s x) : x ∉ s.sco.paused := by
  intro hp
  have hn := hw.nodup
  simp only [Sco.everybody, List.nodup_append, List.mem_append] at hn
  rcases h with h | h
  · exact hn.1.2.2 x (.inl (.inr h)) x hp rfl
  · exact hn.1.2.2 x (.inr h) x hp rfl

theorem step_turns {s s' : S} {a : Act} (r : Reach any s) (hs : step s a = some s') : ∃ new, s'.sco.hist = new ++ s.sco.hist := by
  obtain ⟨ops, ho⟩ := step_steps (reach_scoWF r) hs
  have hr := reach_scoWF r
  generalize s'.sco = y at ho
  generalize s.sco = z at ho hr
  induction ho with
  | nil => exact ⟨[], rfl⟩
  | snoc g o e ih =>
    obtain ⟨n, hn⟩ := ih
    obtain ⟨n2, h2⟩ := step_hist (steps_wf g hr) o e
    exact ⟨n2 ++ n, by rw [h2, hn]; simp⟩

theorem woken_soon {s t : S} (r : Reach any s) (l : Later s t) {x : Nat} (hb : Blocked s x) (hw : Waking s x) (hj : x ∉ s.jobs) :
    s.sco.nextId ≤ t.sco.nextId ∧ ∃ new, turns t = new ++ turns s ∧
      (x ∈ new ∨ ∃ k', Wt (fun p => p = .top) x k' t ∧ (x ∈ t.sco.paused → .co x ∈ t.lists .resumers ∧ x ∉ t.jobs) ∧
        k' + new.length ≤ 2 * (s.sco.nextId - s.sco.done.length) + 2 * (t.sco.nextId - s.sco.nextId)) := by
  induction l with
  | refl => exact ⟨Nat.le_refl _, [], rfl, .inr ⟨_, .late hb (Nat.le_refl _), fun _ => ⟨hw, hj⟩, by simp⟩⟩
  | @step t u a l hs ih =>
    have rt := l.reachA r
    have hi := step_nextId (reach_scoWF rt) hs
    obtain ⟨h1, new, h2, h3⟩ := ih
    refine ⟨by omega, ?_⟩
    rcases h3 with h3 | ⟨k', h3, h4, h5⟩
    · have := step_turns rt hs
      obtain ⟨n2, hn⟩ := this
      exact ⟨n2 ++ new, by unfold turns at *; rw [hn, h2]; simp, .inl (by simp [h3])⟩
    · have hm := h3.other rt hs
      have hwk := fun hp : x ∈ u.sco.paused => by
        have hp0 : x ∈ t.sco.paused := hm.was_paused hp
        exact hm.waking (h4 hp0).2 (h4 hp0).1 hp
      obtain ⟨_, n2, g2, g3⟩ := wt_step (E := fun p => p = .top) ⟨rfl, by simp, by simp⟩ rt hs h3 (by
        intro hc e1 e2 hp
        have ha := top_tau hs hc (by rw [e1]; simp) (by rw [e1]; exact e2)
        subst ha
        exact ready_not_paused (reach_scoWF (.step rt _ trivial hs)) (pass_wakes rt hc e1 hs (h4 hp).1 hp))
      refine ⟨n2 ++ new, by rw [g2, h2]; simp, ?_⟩
      rcases g3 with ⟨_, g3⟩ | ⟨k2, g3, g4⟩
      · exact .inl (by simp [g3])
      · exact .inr ⟨k2, g3, hwk, by simp; omega⟩

/-! ## Deadlines -/

/-- the phases of the main loop before the deadlines are looked at -/
def beforeDl (p : MPc) : Prop := p ≠ .rc ∧ p ≠ .go

theorem dl_wakes {s s' : S} {a : Act} (r : Reach any s) (hs : step s a = some s') {x : Nat} {c : Call} {dl : Int} (hc : s.sco.cur = none)
    (e1 : beforeDl s.main) (e2 : ¬ beforeDl s'.main) (hp : x ∈ s.sco.paused) (hcall : (s.co x).call = c) (hn : c ≠ .none) (hd : callDl c = some dl) (h1 : dl < MAX) (h2 : dl < s.clock)
    (hr : (s.co x).pc ≠ .blk .relock) : x ∉ s'.sco.paused := by
  have hm : s.main = .dl := by
    cases step_sched hs with
    | co i hx _ _ => rw [hc] at hx; cases hx
    | wake _ q _ hm =>
      rcases hm with hm | hm | hm | hm | hm <;> first | exact hm.1 | (exfalso; apply e2; rw [hm.2]; simp [beforeDl])
    | same _ hm => rw [hm] at e2; exact absurd e1 e2
    | idle _ _ hm =>
      exfalso
      rcases hm with hm | hm
      · have := (reach_scoWF r).np; have := List.length_pos_of_mem hp; omega
      · rw [hm.1] at e1; exact e1.1 rfl
    | go _ _ hm => rw [hm.1] at e1; exact absurd rfl e1.2
  have ha := top_tau hs hc (by rw [hm]; simp) (by intro e; rw [e] at e2; exact e2 e1)
  subst ha
  exact ready_not_paused (reach_scoWF (.step r _ trivial hs)) (C09_deadline_wakes r hc hm hs hp ((pending_call r).mpr ⟨hcall, hn⟩) hd h1 h2 hr)

theorem due_soon {s t : S} (r : Reach any s) (l : Later s t) {x : Nat} {c : Call} {dl : Int} (hb : Blocked s x) (hcall : (s.co x).call = c) (hn : c ≠ .none)
    (hd : callDl c = some dl) (h1 : dl < MAX) (h2 : dl < s.clock) (hr : (s.co x).pc ≠ .blk .relock) :
    s.sco.nextId ≤ t.sco.nextId ∧ ∃ new, turns t = new ++ turns s ∧
      (x ∈ new ∨ ∃ k', Wt beforeDl x k' t ∧ (t.co x).pc = (s.co x).pc ∧ (t.co x).call = c ∧ dl < t.clock ∧
        k' + new.length ≤ 2 * (s.sco.nextId - s.sco.done.length) + 2 * (t.sco.nextId - s.sco.nextId)) := by
  induction l with
  | refl => exact ⟨Nat.le_refl _, [], rfl, .inr ⟨_, .late hb (Nat.le_refl _), rfl, hcall, h2, by simp⟩⟩
  | @step t u a l hs ih =>
    have rt := l.reachA r
    have hi := step_nextId (reach_scoWF rt) hs
    obtain ⟨g1, new, g2, g3⟩ := ih
    refine ⟨by omega, ?_⟩
    rcases g3 with g3 | ⟨k', g3, g4, g5, g6, g7⟩
    · obtain ⟨n2, hn⟩ := step_turns rt hs
      exact ⟨n2 ++ new, by unfold turns at *; rw [hn, g2]; simp, .inl (by simp [g3])⟩
    · have hm := (g3.other rt hs).pc
      obtain ⟨_, n2, f2, f3⟩ := wt_step (E := beforeDl) ⟨by simp [beforeDl], by simp [beforeDl], by simp [beforeDl]⟩ rt hs g3
        (fun hc e1 e2 hp => dl_wakes rt hs hc e1 e2 hp g5 hn hd h1 g6 (by rw [g4]; exact hr))
      refine ⟨n2 ++ new, by rw [f2, g2]; simp, ?_⟩
      rcases f3 with ⟨_, f3⟩ | ⟨k2, f3, f4⟩
      · exact .inl (by simp [f3])
      · exact .inr ⟨k2, f3, hm.1.trans g4, hm.2.trans g5, Int.lt_of_lt_of_le g6 (step_clock hs).1, by simp; omega⟩

/-- `x` runs at the end of its call `c`, whose deadline `dl` has passed -/
structure Ends (x : Nat) (c : Call) (dl : Int) (s : S) : Prop where
  cur : s.sco.cur = some x
  call : (s.co x).call = c
  clk : dl < s.clock
  pc : (∃ b, (s.co x).pc = .blk b ∧ BlkC b c dl ∧ b ≠ .cond ∧ b ≠ .relock) ∨ ((s.co x).pc = .cancelTry ∧ ∃ id, c = .cancel id dl) ∨ ∃ v, (s.co x).pc = .ret v

theorem unpause_call (s : S) (x j : Nat) : ((unpause s x).co j).call = (s.co j).call := by
  unfold unpause; split <;> simp only [upd_co] <;> split <;> simp_all

theorem ends_step {x : Nat} {c : Call} {dl : Int} (h1 : dl < MAX) {s s' : S} {a : Act} (h : Ends x c dl s) (hs : step s a = some s') :
    Ends x c dl s' ∨ Over x c s s' := by
  obtain ⟨hc, hcall, hclk, hpc⟩ := h
  have hnu : (s.co x).pc ≠ .user := by
    rcases hpc with ⟨b, h, _⟩ | ⟨h, _⟩ | ⟨v, h⟩ <;> rw [h] <;> simp
  have hnw : (s.co x).pc ≠ .workTry := by
    rcases hpc with ⟨b, h, _⟩ | ⟨h, _⟩ | ⟨v, h⟩ <;> rw [h] <;> simp
  unfold step at hs
  split at hs
  · cases hs
  cases a with
  | call c => simp [hc, hnu] at hs
  | finish => simp [hc, hnu] at hs
  | submit ok => simp [hc, hnw] at hs
  | events evs => simp [hc] at hs
  | clock t =>
    simp only at hs; split at hs <;> cases hs
    exact .inl ⟨hc, hcall, Int.lt_of_lt_of_le hclk ‹_›, hpc⟩
  | signal n =>
    simp only at hs; (repeat' split at hs) <;> cases hs <;> exact .inl ⟨hc, hcall, hclk, hpc⟩
  | wdone i => simp only at hs; split at hs <;> cases hs; exact .inl ⟨hc, hcall, hclk, hpc⟩
  | tau =>
    simp only [hc] at hs
    unfold tauCo at hs
    rcases hpc with ⟨b, h, hb, hb1, hb2⟩ | ⟨h, id, hid⟩ | ⟨v, h⟩
    · rw [h] at hs
      cases hs
      left
      have hcall' : ((afterBlk (preBlk (unpause s x) x b) x b).co x).call = c := by
        rw [← hcall]
        cases b <;> simp only [afterBlk] <;> (try (exact absurd rfl hb1)) <;> (try (exact absurd rfl hb2)) <;> (repeat' split) <;> simp [retv, setPc, upd_co, dlClear, preBlk, unpause_call] <;> (split <;> simp [noteWithdraw_co, unpause_call])
      have hclk' : dl < (afterBlk (preBlk (unpause s x) x b) x b).clock := by
        cases b <;> simp only [afterBlk] <;> (try (exact absurd rfl hb1)) <;> (try (exact absurd rfl hb2)) <;> (repeat' split) <;> first | exact hclk | simp [hclk]
      refine ⟨?_, hcall', hclk', ?_⟩
      · cases b <;> simp only [afterBlk] <;> (try (exact absurd rfl hb1)) <;> (try (exact absurd rfl hb2)) <;> (repeat' split) <;> simp [hc]
      · by_cases hk : b = .cancel
        · subst hk
          exact .inr (.inl ⟨by simp [afterBlk], hb⟩)
        · refine .inr (.inr ?_)
          cases b <;> simp only [afterBlk] <;> (try (exact absurd rfl hb1)) <;> (try (exact absurd rfl hb2)) <;> (try (exact absurd rfl hk)) <;> (repeat' split) <;> simp
    · rw [h] at hs
      simp only [hcall, hid] at hs
      cases hs
      left
      have hne : dlCode s x dl ≠ OK := by
        unfold dlCode
        split
        · decide
        · rw [if_pos (.inr ⟨h1, hclk⟩)]; decide
      unfold doCancel
      rw [if_pos hne]
      split
      · exact ⟨by simp [hc], by simp [retv, setPc, upd_co, dlClear, hcall, hid], by simp [hclk], .inr (.inr ⟨_, pc_retv _ _ _⟩)⟩
      · exact ⟨by simp [hc], by simp [retv, setPc, upd_co, dlClear, hcall, hid], by simp [hclk], .inr (.inr ⟨_, pc_retv _ _ _⟩)⟩
    · rw [h] at hs
      cases hs
      right
      unfold doRet
      split
      · exact ⟨[.kill x false], rfl, .inr ⟨false, by simp⟩⟩
      · exact ⟨[.ret x (s.co x).call v (s.co x).rdat], rfl, .inl ⟨v, (s.co x).rdat, by rw [hcall]; simp⟩⟩

theorem due_over {s t : S} (r : Reach any s) (l : Later s t) {x : Nat} {c : Call} {dl : Int} (hb : Blocked s x) (hcall : (s.co x).call = c) (hn : c ≠ .none)
    (hd : callDl c = some dl) (h1 : dl < MAX) (h2 : dl < s.clock) (hpc : ∃ b, (s.co x).pc = .blk b ∧ BlkC b c dl ∧ b ≠ .cond ∧ b ≠ .relock) :
    s.sco.nextId ≤ t.sco.nextId ∧ (Over x c s t ∨ Ends x c dl t ∨ ∃ new, turns t = new ++ turns s ∧
      (∃ k', Wt beforeDl x k' t ∧ (t.co x).pc = (s.co x).pc ∧ (t.co x).call = c ∧ dl < t.clock ∧
        k' + new.length ≤ 2 * (s.sco.nextId - s.sco.done.length) + 2 * (t.sco.nextId - s.sco.nextId))) := by
  have hr : (s.co x).pc ≠ .blk .relock := by
    obtain ⟨b, e, _, _, e2⟩ := hpc; rw [e]; intro e'; cases e'; exact e2 rfl
  induction l with
  | refl => exact ⟨Nat.le_refl _, .inr (.inr ⟨[], rfl, _, .late hb (Nat.le_refl _), rfl, hcall, h2, by simp⟩)⟩
  | @step t u a l hs ih =>
    have rt := l.reachA r
    have hi := step_nextId (reach_scoWF rt) hs
    obtain ⟨es, hes⟩ := step_suffix hs
    have l' : ∃ es, t.log = es ++ s.log := by
      clear ih hs hes rt hi
      induction l with
      | refl => exact ⟨[], rfl⟩
      | step l hs ih => obtain ⟨e1, h1⟩ := ih; obtain ⟨e2, h2⟩ := step_suffix hs; exact ⟨e2 ++ e1, by rw [h2, h1]; simp⟩
    obtain ⟨g1, g2⟩ := ih
    refine ⟨by omega, ?_⟩
    rcases g2 with ⟨e0, g2, g3⟩ | g2 | ⟨new, g2, k', g3, g4, g5, g6, g7⟩
    · left
      refine ⟨es ++ e0, by rw [hes, g2]; simp, ?_⟩
      rcases g3 with ⟨v, d, g3⟩ | ⟨b, g3⟩
      · exact .inl ⟨v, d, by simp [g3]⟩
      · exact .inr ⟨b, by simp [g3]⟩
    · rcases ends_step h1 g2 hs with h | ⟨e1, f1, f2⟩
      · exact .inr (.inl h)
      · obtain ⟨e0, l'⟩ := l'
        left
        refine ⟨e1 ++ e0, by rw [f1, l']; simp, ?_⟩
        rcases f2 with ⟨v, d, f2⟩ | ⟨b, f2⟩
        · exact .inl ⟨v, d, by simp [f2]⟩
        · exact .inr ⟨b, by simp [f2]⟩
    · have hm := (g3.other rt hs).pc
      obtain ⟨_, n2, f2, f3⟩ := wt_step (E := beforeDl) ⟨by simp [beforeDl], by simp [beforeDl], by simp [beforeDl]⟩ rt hs g3
        (fun hc e1 e2 hp => dl_wakes rt hs hc e1 e2 hp g5 hn hd h1 g6 (by rw [g4]; exact hr))
      right
      rcases f3 with ⟨f3, _⟩ | ⟨k2, f3, f4⟩
      · left
        refine ⟨f3, hm.2.trans g5, Int.lt_of_lt_of_le g6 (step_clock hs).1, .inl ?_⟩
        obtain ⟨b, e1, e2⟩ := hpc
        exact ⟨b, by rw [hm.1, g4]; exact e1, e2⟩
      · right
        exact ⟨n2 ++ new, by rw [f2, g2]; simp, k2, f3, hm.1.trans g4, hm.2.trans g5, Int.lt_of_lt_of_le g6 (step_clock hs).1, by simp; omega⟩

end Neco.Rt
