import Verif.Proof.RtTurn3
import Verif.Props.RtEx
/-!
# C72 nobody is kept waiting

How many turns other coroutines can take before a coroutine that is ready, was woken, or whose deadline has
passed gets its turn.  Coroutines started meanwhile count extra, since `neco_start` runs the new coroutine at once.
-/
namespace Neco.Rt
open Neco.Err

theorem started_eq {ok} {s : S} (r : Reach ok s) : started s = s.sco.nextId := by
  unfold started
  rw [← starts_filter]
  have := (reach_invA r).st
  unfold rl at this; rw [this]; simp

theorem unfinished_eq {ok} {s : S} (r : Reach ok s) : unfinished s = s.sco.nextId - s.sco.done.length := by
  have := (reach_scoWF r).count
  unfold unfinished; omega

theorem steps_append {a b c : Sco} {l m : List Sco.Op} (h : Sco.Steps a l b) (k : Sco.Steps b m c) : Sco.Steps a (l ++ m) c := by
  induction k with
  | nil => simpa using h
  | snoc k o e ih => rw [← List.append_assoc]; exact .snoc ih o e

theorem steps_starts {a b : Sco} {l : List Sco.Op} (h : Sco.Steps a l b) : a.nextId + Sco.starts l ≤ b.nextId := by
  induction h with
  | nil => simp [Sco.starts]
  | @snoc ops t h o e ih =>
    have hst : Sco.starts (ops ++ [o]) = Sco.starts ops + (if o = .start then 1 else 0) := by
      unfold Sco.starts; by_cases ho : o = .start <;> simp [ho]
    rw [hst]
    split
    · rename_i ho
      subst ho
      have : (t.step .start).nextId = t.nextId + 1 := by simp only [Sco.step, Sco.start]; split <;> simp
      omega
    · have := Sco.step_next_le (s := t) o; omega

theorem later_steps {s t : S} (r : Reach any s) (l : Later s t) : ∃ ops, Sco.Steps s.sco ops t.sco := by
  induction l with
  | refl => exact ⟨[], .nil _⟩
  | step l hs ih =>
    obtain ⟨o1, h1⟩ := ih
    obtain ⟨o2, h2⟩ := step_steps (reach_scoWF (l.reachA r)) hs
    exact ⟨_, steps_append h1 h2⟩

theorem Ready.ahead {s : S} {x : Nat} (h : Ready s x) : ∃ k, Sco.Ahead s.sco x k ∧ k + 1 ≤ unfinished s := by
  rcases h with h | h
  · obtain ⟨pre, post, h⟩ := List.append_of_mem h
    exact ⟨_, .runner h, by unfold unfinished; rw [h]; simp; omega⟩
  · obtain ⟨pre, post, h⟩ := List.append_of_mem h
    exact ⟨_, .yielder h, by unfold unfinished; rw [h]; simp; omega⟩

theorem blkC_dl {b : Blk} {c : Call} {dl : Int} (hb : b ≠ .relock) (h : BlkC b c dl) : callDl c = some dl := by
  cases b
  case relock => exact absurd rfl hb
  case lock w => cases w <;> (obtain ⟨m, rfl⟩ := h; rfl)
  all_goals simp only [BlkC] at h
  case send => rcases h with ⟨_, _, rfl⟩ | ⟨_, rfl⟩ <;> rfl
  case sleep => subst h; rfl
  case susp => subst h; rfl
  case sig => subst h; rfl
  case cond => obtain ⟨_, _, rfl⟩ := h; rfl
  case wait => obtain ⟨_, _, rfl⟩ := h; rfl
  all_goals obtain ⟨_, rfl⟩ := h; rfl

theorem later_fault {s t : S} (hf : s.fault = true) (l : Later s t) : t = s := by
  induction l with
  | refl => rfl
  | step l hs ih => subst ih; rw [step_nofault hs] at hf; cases hf

/-- a coroutine that is ready to run gets its turn before the others have taken more turns than there are other unfinished coroutines, plus one for each coroutine started meanwhile -/
theorem C72_ready {s t : S} (r : Reach any s) (l : Later s t) {x : Nat} (h : Ready s x) :
    ∃ new, turns t = new ++ turns s ∧ (x ∈ new ∨ new.length ≤ unfinished s - 1 + (started t - started s)) := by
  obtain ⟨k, hk, h2⟩ := h.ahead
  obtain ⟨ops, hs⟩ := later_steps r l
  obtain ⟨new, h3, h4⟩ := Sco.C03_fair_partial (reach_sco r) hs hk
  refine ⟨new, h3, h4.imp id (fun h => ?_)⟩
  have := steps_starts hs
  rw [started_eq r, started_eq (l.reachA r)]
  omega

/-- a blocked coroutine that something woke gets its turn before the others have taken more turns than twice the number of unfinished coroutines, plus two for each coroutine started meanwhile.  (Partial: not while a background task it left behind is still running, see `C72_woken_not_general`.) -/
theorem C72_woken_partial {s t : S} (r : Reach any s) (l : Later s t) {x : Nat} (hb : Blocked s x) (hw : Waking s x) (hj : x ∉ s.jobs) :
    ∃ new, turns t = new ++ turns s ∧ (x ∈ new ∨ new.length ≤ 2 * unfinished s + 2 * (started t - started s)) := by
  obtain ⟨_, new, h1, h2⟩ := woken_soon r l hb hw hj
  refine ⟨new, h1, h2.imp id ?_⟩
  rintro ⟨k', _, _, h⟩
  rw [started_eq r, started_eq (l.reachA r), unfinished_eq r]
  omega

/-- a coroutine blocked in a call with a deadline gets its turn before the others have taken, once the deadline has passed, more turns than twice the number of unfinished coroutines, plus two for each coroutine started meanwhile.  (`neco_cond_wait` has no deadline while it waits for the mutex again.) -/
theorem C72_deadline_turn {s t : S} (r : Reach any s) (l : Later s t) {x : Nat} {c : Call} {dl : Int} (hb : Blocked s x) (hp : pending x s.log = some c)
    (hd : callDl c = some dl) (h1 : dl < MAX) (h2 : dl < s.clock) (hr : ¬ Relocking s x) :
    ∃ new, turns t = new ++ turns s ∧ (x ∈ new ∨ new.length ≤ 2 * unfinished s + 2 * (started t - started s)) := by
  obtain ⟨g1, g2⟩ := (pending_call r).mp hp
  obtain ⟨_, new, h3, h4⟩ := due_soon r l hb g1 g2 hd h1 h2 hr
  refine ⟨new, h3, h4.imp id ?_⟩
  rintro ⟨k', _, _, _, _, h⟩
  rw [started_eq r, started_eq (l.reachA r), unfinished_eq r]
  omega

/-- and the call ends in that turn: once the deadline of a call has passed, and the others have taken that many turns, the call has returned (or the caller was terminated in it), or the caller is running and is about to.  (For `neco_cond_wait` see `C72_deadline_turn`: it still has to get its mutex.) -/
theorem C72_deadline {s t : S} (r : Reach any s) (l : Later s t) {x : Nat} {c : Call} {dl : Int} (hb : Blocked s x) (hp : pending x s.log = some c)
    (hd : callDl c = some dl) (h1 : dl < MAX) (h2 : dl < s.clock) (hc : ∀ v m d, c ≠ .cvWait v m d) :
    Over x c s t ∨ Running t x ∨ ∃ new, turns t = new ++ turns s ∧ new.length ≤ 2 * unfinished s + 2 * (started t - started s) := by
  by_cases hf : s.fault = false
  case neg => cases later_fault (by simpa using hf) l; exact .inr (.inr ⟨[], rfl, by simp⟩)
  obtain ⟨g1, g2⟩ := (pending_call r).mp hp
  have hF := (reach_invF r).cf x
  have hnw : (s.co x).pc ≠ .workWait := by
    intro e
    rcases hF.sp hb with ⟨h, _⟩ | _
    · rw [e] at h; cases h
    have hft := (reach_invN r hf x).ft
    unfold fits at hft; rw [e] at hft
    rw [g1] at hft; subst hft; cases hd
  obtain ⟨b, e1, dl', e2, e3, _⟩ := blocked_blk r hb hp hnw
  have hdl : dl' = dl := by
    have := blkC_dl (b := b) (by rintro rfl; obtain ⟨⟨v, m, d, h⟩, _⟩ := e2; exact hc _ _ _ h) e2
    rw [hd] at this; cases this; rfl
  subst hdl
  obtain ⟨_, h4⟩ := due_over r l hb g1 g2 hd h1 h2 ⟨b, e1, e2, by
      rintro rfl; obtain ⟨v, m, h⟩ := e2; exact hc _ _ _ h, by
      rintro rfl; obtain ⟨⟨v, m, d, h⟩, _⟩ := e2; exact hc _ _ _ h⟩
  rcases h4 with h4 | h4 | ⟨new, h5, k', _, _, _, _, h⟩
  · exact .inl h4
  · exact .inr (.inl h4.cur)
  · refine .inr (.inr ⟨new, h5, ?_⟩)
    rw [started_eq r, started_eq (l.reachA r), unfinished_eq r]
    omega

/-- the calls that do not wait for anything never block the caller -/
theorem C72_waits {s : S} (r : Reach any s) (hf : s.fault = false) {x : Nat} {c : Call} (hp : pending x s.log = some c) (hw : canWait c = false) : ¬ Blocked s x := by
  intro hb
  obtain ⟨g1, g2⟩ := (pending_call r).mp hp
  have hnw : (s.co x).pc ≠ .workWait := by
    intro e
    have hft := (reach_invN r hf x).ft
    unfold fits at hft; rw [e] at hft
    rw [g1] at hft; subst hft; cases hw
  obtain ⟨b, e1, dl', e2, e3, _⟩ := blocked_blk r hb hp hnw
  by_cases hb' : b = .relock
  · subst hb'; obtain ⟨⟨v, m, d, h⟩, _⟩ := e2; subst h; cases hw
  · have := blkC_dl hb' e2
    cases c <;> first | (cases hw; done) | (cases this; done)

/-! ## Cases, and a counterexample -/

theorem drive_later {p : S → Bool} {n : Nat} {u s t : S} (l : Later u s) (h : drive (fun _ _ => true) p n s = some t) : Later u t := by
  induction n generalizing s with
  | zero => unfold drive at h; split at h <;> cases h; exact l
  | succ n ih =>
    unfold drive at h; split at h
    · cases h; exact l
    · split at h
      · rename_i a u hu; exact ih (.step l (autoStep_ok hu).2) h
      · cases h

theorem script_later {l : List Sc} {u s t : S} (h0 : Later u s) (h : script (fun _ _ => true) l s = some t) : Later u t := by
  induction l generalizing s with
  | nil => cases h; exact h0
  | cons x l ih =>
    cases x with
    | raw a =>
      simp only [script, if_true] at h; split at h
      · rename_i v hv; exact ih (.step h0 hv) h
      · cases h
    | on i a =>
      unfold script at h; split at h
      · rename_i v hv
        simp only [if_true] at h; split at h
        · rename_i w hw; exact ih (.step (drive_later h0 hv) hw) h
        · cases h
      · cases h
    | til p =>
      unfold script at h; split at h
      · rename_i v hv; exact ih (drive_later h0 hv) h
      · cases h

/-- the script `l` can be run to where `p` holds, and from there on the script `m` to where `q` does -/
def twoB (l : List Sc) (p : S → Bool) (m : List Sc) (q : S → S → Bool) : Bool :=
  match script (fun _ _ => true) (l ++ [.til p]) (init false true) with
  | none => false
  | some s => p s && match script (fun _ _ => true) (m ++ [.til (q s)]) s with
    | none => false
    | some t => q s t
theorem two (l : List Sc) {p : S → Bool} (m : List Sc) {q : S → S → Bool} (h : twoB l p m q = true) : ∃ s t, Reach any s ∧ p s = true ∧ Later s t ∧ q s t = true := by
  unfold twoB at h
  split at h
  · cases h
  · rename_i s hs
    rw [Bool.and_eq_true] at h
    obtain ⟨h1, h2⟩ := h
    split at h2
    · cases h2
    · rename_i t ht
      exact ⟨s, t, script_reach (fun _ _ _ => trivial) (.init _ _) hs, h1, script_later .refl ht, h2⟩

/-- what was added to the turns -/
def newTurns (s t : S) : List Nat := (turns t).take ((turns t).length - (turns s).length)

/-- 2 yields; 1 goes on, and 2 gets its turn -/
example : ∃ s t, Reach any s ∧ Later s t ∧ Ready s 2 ∧ turns t = 2 :: turns s := by
  obtain ⟨s, t, r, h1, l, h2⟩ := two [.on 1 (.call .start), .on 2 (.call .yield)] [] (p := fun s => decide (2 ∈ s.sco.yielders)) (q := fun s t => decide (turns t = 2 :: turns s)) (by decide +kernel)
  exact ⟨s, t, r, l, .inr (of_decide_eq_true h1), of_decide_eq_true h2⟩

/-- 2 waits for the mutex that 1 holds; 1 releases it, and 2 gets its turn after one of 1 -/
example : ∃ s t, Reach any s ∧ Later s t ∧ Blocked s 2 ∧ Waking s 2 ∧ 2 ∉ s.jobs ∧ turns t = 2 :: 1 :: turns s := by
  obtain ⟨s, t, r, h1, l, h2⟩ := two [.on 1 (.call (.lock 0 MAX)), .on 1 (.call .start), .on 2 (.call (.lock 0 MAX)), .on 1 (.call (.unlock 0))] []
    (p := fun s => decide (2 ∈ s.sco.paused ∧ .co 2 ∈ s.lists .resumers ∧ 2 ∉ s.jobs)) (q := fun s t => decide (turns t = 2 :: 1 :: turns s)) (by decide +kernel)
  obtain ⟨g1, g2, g3⟩ := of_decide_eq_true h1
  exact ⟨s, t, r, l, g1, g2, g3, of_decide_eq_true h2⟩

/-- 2 sleeps until 5; at 6 it is woken, and returns -/
example : ∃ s t, Reach any s ∧ Later s t ∧ Blocked s 2 ∧ pending 2 s.log = some (.sleep 5) ∧ 5 < s.clock ∧ ¬ Relocking s 2 ∧ Over 2 (.sleep 5) s t := by
  obtain ⟨s, t, r, h1, l, h2⟩ := two [.on 1 (.call .start), .on 2 (.call (.sleep 5)), .on 1 (.clock 6)] []
    (p := fun s => decide (2 ∈ s.sco.paused ∧ pending 2 s.log = some (.sleep 5) ∧ 5 < s.clock ∧ (s.co 2).pc ≠ .blk .relock)) (q := fun s t => decide (t.log = .ret 2 (.sleep 5) OK 0 :: t.log.drop 1 ∧ t.log = t.log.take (t.log.length - s.log.length) ++ s.log ∧ t.log.length ≠ s.log.length)) (by decide +kernel)
  obtain ⟨g1, g2, g3, g4⟩ := of_decide_eq_true h1
  obtain ⟨g5, g6, g7⟩ := of_decide_eq_true h2
  refine ⟨s, t, r, l, g1, g2, g3, g4, _, g6, .inl ⟨OK, 0, ?_⟩⟩
  have h : 0 < t.log.length - s.log.length := by
    have := congrArg List.length g6
    rw [List.length_append] at this
    omega
  revert h
  generalize t.log.length - s.log.length = n
  intro h
  rw [g5, List.take_cons h]
  exact List.mem_cons_self

/-- a call that does not wait -/
example : ∃ s, Reach any s ∧ s.fault = false ∧ pending 1 s.log = some (.unlock 0) := by
  obtain ⟨s, r, h⟩ := scriptA [.on 1 (.call (.lock 0 MAX)), .on 1 (.call (.unlock 0))] (p := fun s => decide (s.fault = false ∧ pending 1 s.log = some (.unlock 0))) (by decide +kernel)
  obtain ⟨h1, h2⟩ := of_decide_eq_true h
  exact ⟨s, r, h1, h2⟩

/-- 2 is canceled inside `neco_work` and leaves its task behind, then waits for the mutex of 1; 1 releases it; before 2 is run, the task completes: it takes 2 off the list of the woken, and puts it on a list that is looked at only while somebody waits for a task -/
theorem C72_woken_not_general : ¬ ∀ (s t : S) (x : Nat) (new : List Nat), Reach any s → Later s t → Blocked s x → Waking s x → turns t = new ++ turns s →
    x ∈ new ∨ new.length ≤ 2 * unfinished s + 2 * (started t - started s) := by
  intro hall
  obtain ⟨s, t, r, h1, l, h2⟩ := two [.on 1 (.call (.lock 0 MAX)), .on 1 (.call .start), .on 2 (.call .work), .raw (.submit true), .on 1 (.call (.cancel 2 MAX)),
      .on 2 (.call (.sleep 9)), .on 2 (.call (.lock 0 MAX)), .on 1 (.call (.unlock 0))] [.raw (.wdone 2)]
    (p := fun s => decide (2 ∈ s.sco.paused ∧ .co 2 ∈ s.lists .resumers))
    (q := fun s t => decide (turns t = newTurns s t ++ turns s ∧ 2 ∉ newTurns s t ∧ ¬ (newTurns s t).length ≤ 2 * unfinished s + 2 * (started t - started s))) (by decide +kernel)
  obtain ⟨g1, g2⟩ := of_decide_eq_true h1
  obtain ⟨g3, g4, g5⟩ := of_decide_eq_true h2
  rcases hall s t 2 _ r l g1 g2 g3 with h | h
  · exact g4 h
  · exact g5 h

end Neco.Rt
