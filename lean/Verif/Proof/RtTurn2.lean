import Verif.Proof.RtTurn
import Verif.Proof.RtDone
import Verif.Spec.Turns
/-!
# How many turns a coroutine of the runtime has to wait
-/
namespace Neco.Rt
open Neco.Err Sco

/-- what a step of the runtime does to the scheduler -/
inductive SStep (s s' : S) : Prop
  | co (i : Nat) (hc : s.sco.cur = some i) (h : CoSco s.sco s'.sco) (hm : s'.main = s.main)
  | wake (hc : s.sco.cur = none) (q : List Nat) (h : s'.sco = q.foldl Sco.resume s.sco)
      (hm : (s.main = .top ∧ s'.main = .io) ∨ (s.main = .io ∧ s'.main = .ev) ∨ (s.main = .ev ∧ s'.main = .sig) ∨ (s.main = .sig ∧ s'.main = .dl) ∨ (s.main = .dl ∧ s'.main = .rc))
  | same (h : s'.sco = s.sco) (hm : s'.main = s.main)
  | idle (hc : s.sco.cur = none) (h : s'.sco = s.sco) (hm : (s.main = .top ∧ s.sco.npaused = 0 ∧ (s'.main = .done ∨ s'.main = .rc)) ∨ (s.main = .rc ∧ s'.main = .go))
  | go (hc : s.sco.cur = none) (h : s'.sco = s.sco.resume0) (hm : s.main = .go ∧ s'.main = .top)

theorem wakeAll_fold (s : S) (q : List Nat) : (wakeAll s q).sco = q.foldl Sco.resume s.sco := by
  induction q generalizing s with
  | nil => rfl
  | cons i q ih => simp only [wakeAll, List.foldl_cons]; rw [ih]; rfl

theorem mEvents_fold (s : S) (l) : ∃ q : List Nat, (mEvents s l).sco = q.foldl Sco.resume s.sco := by
  induction l generalizing s with
  | nil => exact ⟨[], rfl⟩
  | cons e l ih =>
    obtain ⟨q, h⟩ := ih (mEvent s e)
    simp only [mEvents]
    rw [h]
    unfold mEvent
    rw [wakeAll_fold]
    exact ⟨_, (List.foldl_append ..).symm⟩

theorem step_sched {s s' : S} {a : Act} (hs : step s a = some s') : SStep s s' := by
  unfold step at hs
  split at hs
  · cases hs
  cases a with
  | call c =>
    simp only at hs
    split at hs
    · cases hs
    · split at hs
      · rename_i i hc _; cases hs
        exact .co i hc (doCall_cs (upd (note s (Ev.call i c)) i (fun k => { k with call := c })) i c) (by rw [doCall_main]; rfl)
      · cases hs
  | finish =>
    simp only at hs
    split at hs
    · cases hs
    · split at hs
      · cases hs; exact .same rfl rfl
      · cases hs
  | tau =>
    simp only at hs
    split at hs
    · rename_i i hc
      exact .co i hc (tauCo_cs hs) (tauCo_main hs)
    · rename_i hc
      unfold tauMain at hs
      split at hs
      · rename_i hm
        split at hs
        · cases hs
          refine .idle hc rfl (.inl ⟨hm, ?_, .inl rfl⟩)
          rename_i ha; unfold Sco.active at ha; simp at ha; omega
        · split at hs
          · cases hs
            exact .wake hc _ (wakeAll_fold ..) (.inl ⟨hm, rfl⟩)
          · cases hs
            exact .idle hc rfl (.inl ⟨hm, by omega, .inr rfl⟩)
      · rename_i hm
        cases hs
        unfold mIo; split
        · exact .wake hc _ (wakeAll_fold ..) (.inr (.inl ⟨hm, rfl⟩))
        · exact .wake hc [] rfl (.inr (.inl ⟨hm, rfl⟩))
      · cases hs
      · rename_i hm
        cases hs
        unfold mSig; dsimp only; (repeat' split)
        · exact .wake hc [] rfl (.inr (.inr (.inr (.inl ⟨hm, rfl⟩))))
        · exact .wake hc [] rfl (.inr (.inr (.inr (.inl ⟨hm, rfl⟩))))
        · exact .wake hc [] rfl (.inr (.inr (.inr (.inl ⟨hm, rfl⟩))))
        · rename_i w _
          exact .wake hc [w.owner] rfl (.inr (.inr (.inr (.inl ⟨hm, rfl⟩))))
      · rename_i hm
        cases hs
        exact .wake hc _ (wakeAll_fold ..) (.inr (.inr (.inr (.inr ⟨hm, rfl⟩))))
      · rename_i hm
        cases hs
        exact .idle hc rfl (.inr ⟨hm, rfl⟩)
      · rename_i hm
        cases hs
        exact .go hc rfl ⟨hm, rfl⟩
      · cases hs
  | submit ok =>
    simp only at hs
    split at hs
    · cases hs
    · rename_i i hc
      (repeat' split at hs) <;> cases hs
      · exact .co i hc .pause rfl
      · exact .co i hc .yield rfl
  | events evs =>
    simp only at hs
    split at hs
    · rename_i h
      cases hs
      split
      · obtain ⟨q, hq⟩ := mEvents_fold s evs
        exact .wake h.1 q hq (.inr (.inr (.inl ⟨h.2.1, rfl⟩)))
      · exact .wake h.1 [] rfl (.inr (.inr (.inl ⟨h.2.1, rfl⟩)))
    · cases hs
  | clock t => simp only at hs; split at hs <;> cases hs; exact .same rfl rfl
  | signal n =>
    simp only at hs; (repeat' split at hs) <;> cases hs <;> exact .same rfl rfl
  | wdone i => simp only at hs; split at hs <;> cases hs; exact .same rfl rfl

/-- while a coroutine runs the main loop is at its top -/
theorem reach_top {ok} {s : S} (r : Reach ok s) : s.sco.cur ≠ none → s.main = .top := by
  induction r with
  | init a e => intro _; rfl
  | @step s s' r a hok hs ih =>
    intro h
    cases step_sched hs with
    | co i hc hx hm => rw [hm]; exact ih (by rw [hc]; simp)
    | same hx hm => rw [hm]; exact ih (by rw [← hx]; exact h)
    | wake hc q hx hm =>
      exfalso; apply h; rw [hx]
      clear hx hm h
      generalize s.sco = x at hc ⊢
      induction q generalizing x with
      | nil => exact hc
      | cons i q ih => exact ih _ (resume_main_cur hc i)
    | idle hc hx hm => exfalso; apply h; rw [hx]; exact hc
    | go hc hx hm => exact hm.2

theorem fold_cur {x : Sco} (hc : x.cur = none) (q : List Nat) : (q.foldl Sco.resume x).cur = none := by
  induction q generalizing x with
  | nil => exact hc
  | cons i q ih => exact ih (resume_main_cur hc i)

theorem fold_adv {x : Sco} (hw : WF x) (hc : x.cur = none) (q : List Nat) {j k : Nat} (hb : Bound x j k) : Adv j k x (q.foldl Sco.resume x) := by
  induction q generalizing x k with
  | nil => exact .refl hb
  | cons i q ih =>
    refine (resume_adv hw i hb).trans (by rw [resume_main_cur hc i]; simp) (fun k' hb' => ?_)
    exact ih (resume_wf hw i) (resume_main_cur hc i) hb'

theorem co_adv {x y : Sco} (hw : WF x) {i : Nat} (hc : x.cur = some i) (h : CoSco x y) {j k : Nat} (hb : Bound x j k) : Adv j k x y := by
  have hs : x.cur.isSome := by rw [hc]; rfl
  have h0 : x.nextId ≠ 0 := by have := cur_le hw hc; omega
  cases h with
  | refl => exact .refl hb
  | yield => exact op_adv hw .yield hs (by simp) h0 hb
  | pause => exact op_adv hw .pause hs (by simp) h0 hb
  | resume id => exact op_adv hw (.resume id) hs (by simp) h0 hb
  | start => exact op_adv hw .start hs (by simp) h0 hb
  | finish => exact op_adv hw .finish hs (by simp) h0 hb
  | exit => exact op_adv hw .exit hs (by simp) h0 hb

theorem resume_ids (x : Sco) (i : Nat) : (x.resume i).nextId = x.nextId ∧ (x.resume i).done = x.done := by
  unfold Sco.resume; split
  · unfold Sco.yield; split
    · refine ⟨by simp [Sco.wake], ?_⟩
      unfold Sco.switch Sco.toMain Sco.promote Sco.dispatch
      (repeat' split) <;> rfl
    · exact ⟨rfl, rfl⟩
  · exact ⟨rfl, rfl⟩

theorem fold_ids (x : Sco) (q : List Nat) : (q.foldl Sco.resume x).nextId = x.nextId ∧ (q.foldl Sco.resume x).done = x.done := by
  induction q generalizing x with
  | nil => exact ⟨rfl, rfl⟩
  | cons i q ih =>
    have h1 := ih (x.resume i); have h2 := resume_ids x i
    exact ⟨h1.1.trans h2.1, h1.2.trans h2.2⟩

theorem fold_paused {x : Sco} {q : List Nat} {j : Nat} (h : j ∈ (q.foldl Sco.resume x).paused) : j ∈ x.paused := by
  induction q generalizing x with
  | nil => exact h
  | cons i q ih =>
    have := ih h
    unfold Sco.resume at this
    split at this
    · simp [Sco.wake] at this; exact this.1
    · exact this

/-- the number of turns `x` has to wait at most if it is woken before the main loop leaves the phases `E` -/
inductive Wt (E : MPc → Prop) (x k : Nat) (s : S) : Prop
  | ready (h : ∃ k', Ahead s.sco x k' ∧ k' ≤ k)
  | early (hp : x ∈ s.sco.paused) (hm : E s.main) (h : s.sco.runners.length + (s.sco.nextId - s.sco.done.length) ≤ k)
  | late (hp : x ∈ s.sco.paused) (h : 2 * (s.sco.nextId - s.sco.done.length) ≤ k)

theorem Wt.bound {E} {s : S} (hw : WF s.sco) {x k : Nat} (h : Wt E x k s) : Bound s.sco x k := by
  cases h with
  | ready h => exact .inl h
  | early hp hm h => exact .inr ⟨hp, h⟩
  | late hp h => exact .inr ⟨hp, by have := hw.count; omega⟩

/-- one step: `x` is run, or came nearer to it -/
theorem wt_step {ok} {E : MPc → Prop} (hE : E .top ∧ ¬ E .rc ∧ ¬ E .go) {s s' : S} {a : Act} (r : Reach ok s) (hs : step s a = some s') {x k : Nat} (h : Wt E x k s)
    (hd : s.sco.cur = none → E s.main → ¬ E s'.main → x ∈ s.sco.paused → x ∉ s'.sco.paused) :
    s.sco.nextId ≤ s'.sco.nextId ∧ ∃ new, turns s' = new ++ turns s ∧
      ((s'.sco.cur = some x ∧ x ∈ new) ∨ ∃ k', Wt E x k' s' ∧ k' + new.length ≤ k + 2 * (s'.sco.nextId - s.sco.nextId)) := by
  have hw := reach_scoWF r
  -- from a bound on the scheduler to one on the runtime
  have key : Adv x k s.sco s'.sco → (x ∈ s'.sco.paused → E s'.main) → s.sco.nextId ≤ s'.sco.nextId ∧ ∃ new, turns s' = new ++ turns s ∧
      ((s'.sco.cur = some x ∧ x ∈ new) ∨ ∃ k', Wt E x k' s' ∧ k' + new.length ≤ k + 2 * (s'.sco.nextId - s.sco.nextId)) := by
    rintro ⟨h1, new, h2, h3⟩ hm
    refine ⟨h1, new, h2, ?_⟩
    rcases h3 with h3 | ⟨k', h3, h4⟩
    · exact .inl h3
    · refine .inr ⟨k', ?_, h4⟩
      rcases h3 with h3 | ⟨h3, h5⟩
      · exact .ready h3
      · exact .early h3 (hm h3) h5
  cases step_sched hs with
  | co i hc hx hm =>
    have ht := reach_top r (by rw [hc]; simp)
    exact key (co_adv hw hc hx (h.bound hw)) (fun _ => by rw [hm, ht]; exact hE.1)
  | wake hc q hx hm =>
    have ha : Adv x k s.sco s'.sco := by rw [hx]; exact fold_adv hw hc q (h.bound hw)
    have hid := fold_ids s.sco q
    rw [← hx] at hid
    by_cases hp : x ∈ s'.sco.paused
    · have hp0 : x ∈ s.sco.paused := by rw [hx] at hp; exact fold_paused hp
      by_cases he : E s'.main
      · exact key ha (fun _ => he)
      · have hne : ¬ E s.main := fun e => hd hc e he hp0 hp
        have hl : 2 * (s.sco.nextId - s.sco.done.length) ≤ k := by
          cases h with
          | ready h =>
            exfalso
            obtain ⟨k', h, _⟩ := h
            have hn := hw.nodup
            simp only [Sco.everybody, List.nodup_append, List.mem_append] at hn
            cases h with
            | @runner pre post h => exact hn.1.2.2 x (.inl (.inr (by rw [h]; simp))) x hp0 rfl
            | @yielder pre post h => exact hn.1.2.2 x (.inr (by rw [h]; simp)) x hp0 rfl
          | early _ hm _ => exact absurd hm hne
          | late _ h => exact h
        obtain ⟨h1, new, h2, h3⟩ := ha
        have hh : new = [] := by
          have : s'.sco.hist = s.sco.hist := by
            rw [hx]; clear hx hm key hid h3 h2 h1 hp hp0 he hne
            have hw' := hw
            revert hw' hc
            generalize s.sco = y
            intro hc hw'
            induction q generalizing y with
            | nil => rfl
            | cons i q ih =>
              rw [List.foldl_cons, ih _ (resume_main_cur hc i) (resume_wf hw' i)]
              unfold Sco.resume; split
              · unfold Sco.yield
                have : (y.wake i).cur = none := hc
                rw [this]; rfl
              · rfl
          rw [this] at h2
          have := congrArg List.length h2
          simp at this; exact this
        subst hh
        exact ⟨h1, [], h2, .inr ⟨k, .late hp (by rw [hid.1, hid.2]; exact hl), by simp⟩⟩
    · exact key ha (fun h => absurd h hp)
  | same hx hm =>
    refine ⟨by rw [hx]; exact Nat.le_refl _, [], by simp [turns, hx], .inr ⟨k, ?_, by simp⟩⟩
    cases h with
    | ready h => exact .ready (by rw [hx]; exact h)
    | early hp h1 h2 => exact .early (by rw [hx]; exact hp) (by rw [hm]; exact h1) (by rw [hx]; exact h2)
    | late hp h => exact .late (by rw [hx]; exact hp) (by rw [hx]; exact h)
  | idle hc hx hm =>
    refine ⟨by rw [hx]; exact Nat.le_refl _, [], by simp [turns, hx], .inr ⟨k, ?_, by simp⟩⟩
    cases h with
    | ready h => exact .ready (by rw [hx]; exact h)
    | early hp h1 h2 =>
      exfalso
      rcases hm with hm | hm
      · rw [hw.np] at hm; have := List.length_pos_of_mem hp; omega
      · rw [hm.1] at h1; exact hE.2.1 h1
    | late hp h => exact .late (by rw [hx]; exact hp) (by rw [hx]; exact h)
  | go hc hx hm =>
    refine key ?_ (fun _ => by rw [hm.2]; exact hE.1)
    rw [hx]
    refine next_adv hw hc ?_
    cases h with
    | ready h => exact .inl h
    | early hp h1 h2 => rw [hm.1] at h1; exact absurd h1 hE.2.2
    | late hp h => exact .inr ⟨hp, h⟩

end Neco.Rt
