import Verif.Proof.RtRef4
import Verif.Props.RtEx
/-!
# C73: a program that keeps the rules runs into nothing undefined

`Legal` (`Verif/Spec/Legal.lean`) lists the five things a program must not do.  In every execution of the
integrated runtime in which it does none of them, no step is undefined in C: no channel is used after it
was freed, none is freed while a coroutine is queued on it, no select case is taken for a coroutine, no
counter overflows, no handler is popped from an empty stack.
-/
namespace Neco.Rt
open Neco.Err

/-- **C73**: in a program that keeps the rules nothing undefined happens, whatever its coroutines call in
whatever order, whatever time passes and whatever the system and the worker threads do. -/
theorem C73_defined {s : S} (r : Reach Legal s) : s.fault = false := (reach_legal r).1

/-- **C73**: a channel the program has a reference to is there, and so is the channel of a generator that has not ended. -/
theorem C73_kept {s : S} (r : Reach Legal s) {k : Nat} (h : 0 < refs k s.log ∨ ∃ i, genOf i s.log = some k ∧ .exit i ∉ s.log) : ∃ ch, s.chan k = some ch := by
  rcases h with h | ⟨i, h1, h2⟩
  · exact (reach_legal r).2.1.chan h
  · rcases (reach_invE r).co i with h3 | ⟨_, h3⟩
    · exact (reach_legal r).2.1.genChan (h3.trans h1)
    · exact absurd h3 h2

/-- **C73**: a channel the program has no reference to is freed, once the coroutine of a generator has
finished if it is a generator's channel. -/
theorem C73_freed {s : S} (r : Reach Legal s) {k : Nat} (h : refs k s.log = 0) (hg : ∀ i, genOf i s.log = some k → (s.co i).pc = .dead) : s.chan k = none := by
  cases e : s.chan k with
  | none => rfl
  | some ch =>
    obtain ⟨h1, _, h3⟩ := (reach_legal r).2.1.rc k ch e
    have hno : ∀ i, (s.co i).gen ≠ some k := by
      intro i hi
      rcases (reach_invE r).co i with h4 | ⟨h4, _⟩
      · have := hg i (h4.symm.trans hi)
        rw [(reach_invT r).tl i (by rw [this]; rfl)] at hi; cases hi
      · rw [h4] at hi; cases hi
    have := h3 hno
    omega

/-- **C73**: the program never has fewer than no references, and a channel somebody uses in a call is there. -/
theorem C73_used {s : S} (r : Reach Legal s) (k : Nat) : 0 ≤ refs k s.log ∧ (Busy k s.log → ∃ ch, s.chan k = some ch) := by
  have h := (reach_legal r).2.1
  refine ⟨?_, fun hu => h.chan (h.us k hu)⟩
  cases e : s.chan k with
  | none => rw [(h.no k e).1]; exact Int.le_refl 0
  | some ch =>
    obtain ⟨h1, h2, h3⟩ := h.rc k ch e
    by_cases hg : ∃ i, (s.co i).gen = some k
    · rw [← h2 hg]; exact h1
    · rw [← h3 (fun i hi => hg ⟨i, hi⟩)]; omega

/-! ## Cases, and what the rules exclude -/

/-- those who made a call -/
def callers : List Ev → List Nat
  | [] => []
  | .call i _ :: l => i :: callers l
  | _ :: l => callers l
theorem pending_caller {j : Nat} {c : Call} {l : List Ev} (h : pending j l = some c) : j ∈ callers l := by
  induction l with
  | nil => cases h
  | cons e l ih =>
    cases e <;> simp only [pending, callers] at h ⊢ <;> try exact ih h
    · split at h
      · rename_i e; rw [e]; exact List.mem_cons_self
      · exact List.mem_cons_of_mem _ (ih h)
    · split at h
      · cases h
      · exact ih h

def busyB (k : Nat) (l : List Ev) : Bool :=
  (callers l).any (fun j => match pending j l with | some c => (uses c).contains k && !dying j l | none => false)
theorem busyB_of {k : Nat} {l : List Ev} (h : Busy k l) : busyB k l = true := by
  obtain ⟨j, c, h1, h2, h3⟩ := h
  unfold busyB
  rw [List.any_eq_true]
  refine ⟨j, pending_caller h1, ?_⟩
  rw [h1]; simp [h2, h3]

/-- `Legal` as a test -/
def legalB (s : S) (a : Act) : Bool := match s.sco.cur with
  | none => true
  | some i => match a with
    | .call c => (names c).all (fun k => decide (0 < refs k s.log)) &&
        (match c with
        | .chRelease k => decide (refs k s.log ≠ 1) || !busyB k s.log
        | .wgAdd w d => decide (-2147483648 ≤ wgCount w s.log + d ∧ wgCount w s.log + d ≤ 2147483647)
        | .cpop _ => decide (handlers i s.log ≠ [])
        | _ => true)
    | .finish => decide (handlers i s.log = [])
    | _ => true
theorem legalB_legal {s : S} {a : Act} (h : legalB s a = true) : Legal s a := by
  intro i hc
  unfold legalB at h; rw [hc] at h; dsimp only at h
  refine ⟨?_, ?_⟩
  · rintro c rfl
    simp only [Bool.and_eq_true, List.all_eq_true, decide_eq_true_eq] at h
    obtain ⟨h1, h2⟩ := h
    refine ⟨h1, ?_, ?_, ?_⟩
    · rintro k rfl h3 hu
      have := busyB_of hu
      simp [h3, this] at h2
    · rintro w d rfl; simpa using h2
    · rintro x rfl; simpa using h2
  · rintro rfl; simpa using h

/-- a script that keeps the rules -/
theorem scriptL (l : List Sc) {p : S → Bool} (h : (script legalB (l ++ [.til p]) (init false true)).any p = true) : ∃ s, Reach Legal s ∧ p s = true :=
  scriptW (fun _ _ => legalB_legal) h

/-- two coroutines share a channel, retain and release it, one waits on it and is served, the other pops its handler -/
def legalTwo : List Sc :=
  [.on 1 (.call (.chMake 0)), .on 1 (.call (.chRetain 0)), .on 1 (.call .start), .on 2 (.call (.recv 0 MAX)),
   .on 1 (.call (.cpush 7)), .on 1 (.call (.send 0 42 MAX)), .on 1 (.call (.cpop true)), .on 1 (.call (.chRelease 0)), .on 2 (.call (.chRelease 0))]
example : ∃ s, Reach Legal s ∧ refs 0 s.log = 0 ∧ .ret 2 (.recv 0 MAX) OK 42 ∈ s.log ∧ s.chan 0 = none ∧ (s.co 2).pc = .user := by
  obtain ⟨s, r, h⟩ := scriptL legalTwo (p := fun s => decide (refs 0 s.log = 0 ∧ .ret 2 (.recv 0 MAX) OK 42 ∈ s.log ∧ s.chan 0 = none ∧ (s.co 2).pc = .user)) (by decide +kernel)
  exact ⟨s, r, by simpa using h⟩

/-- a generator gives two values, its reader takes them, the generator ends and the reader gives it up -/
def legalGen : List Sc :=
  [.on 1 (.call .genStart), .on 2 (.call (.genYield 5 MAX)), .on 1 (.call (.recv 0 MAX)), .on 2 (.call (.genYield 6 MAX)),
   .on 1 (.call (.recv 0 MAX)), .on 2 .finish, .on 1 (.call (.chRelease 0))]
example : ∃ s, Reach Legal s ∧ refs 0 s.log = 0 ∧ genOf 2 s.log = some 0 ∧ .ret 1 (.recv 0 MAX) OK 5 ∈ s.log ∧ (s.co 2).pc = .dead ∧ s.chan 0 = none := by
  obtain ⟨s, r, h⟩ := scriptL legalGen (p := fun s => decide (refs 0 s.log = 0 ∧ genOf 2 s.log = some 0 ∧ .ret 1 (.recv 0 MAX) OK 5 ∈ s.log ∧ (s.co 2).pc = .dead ∧ s.chan 0 = none)) (by decide +kernel)
  exact ⟨s, r, by simpa using h⟩
/-- the generator holds on to its channel when the reader has given it up -/
example : ∃ s, Reach Legal s ∧ refs 0 s.log = 0 ∧ genOf 2 s.log = some 0 ∧ .exit 2 ∉ s.log ∧ (s.chan 0).isSome = true := by
  obtain ⟨s, r, h⟩ := scriptL (legalGen.take 4 ++ [.on 1 (.call (.chRelease 0))]) (p := fun s => decide (refs 0 s.log = 0 ∧ genOf 2 s.log = some 0 ∧ .exit 2 ∉ s.log ∧ (s.chan 0).isSome = true)) (by decide +kernel)
  exact ⟨s, r, by simpa using h⟩
/-- a channel is used by a coroutine that waits on it -/
example : ∃ s, Reach Legal s ∧ Busy 0 s.log ∧ refs 0 s.log = 1 := by
  obtain ⟨s, r, h⟩ := scriptL [.on 1 (.call (.chMake 0)), .on 1 (.call .start), .on 2 (.call (.recv 0 MAX)), .on 1 (.call (.wgAdd 0 1))]
    (p := fun s => decide (pending 2 s.log = some (.recv 0 MAX) ∧ dying 2 s.log = false ∧ refs 0 s.log = 1)) (by decide +kernel)
  simp only [decide_eq_true_eq] at h
  exact ⟨s, r, ⟨2, .recv 0 MAX, h.1, by simp [uses], h.2.1⟩, h.2.2⟩

/-- after the script, which keeps the rules, the step `a` is undefined -/
def badB (l : List Sc) (a : Act) : Bool :=
  (script legalB (l ++ [.til (turn 1)]) (init false true)).any (fun s => turn 1 s && (step s a).any (fun t => t.fault))
theorem bad (l : List Sc) (a : Act) (h : badB l a = true) : ∃ s t, Reach Legal s ∧ step s a = some t ∧ t.fault = true := by
  unfold badB at h
  cases hr : script legalB (l ++ [.til (turn 1)]) (init false true) with
  | none => rw [hr] at h; cases h
  | some s =>
    rw [hr] at h
    simp only [Option.any_some, Bool.and_eq_true] at h
    cases hs : step s a with
    | none => rw [hs] at h; simp at h
    | some t => rw [hs] at h; exact ⟨s, t, script_reach (fun _ _ => legalB_legal) (.init _ _) hr, hs, h.2⟩

/-- **C73**: each of the rules is needed.  The first step that breaks one of them is undefined: a receive
on a channel that was released, a release while a coroutine waits on the channel, a wait group counted past
the largest `int`, a pop of a handler that was not pushed. -/
theorem C73_rules_needed :
    (∃ s t, Reach Legal s ∧ step s (.call (.recv 0 MAX)) = some t ∧ t.fault = true) ∧
    (∃ s t, Reach Legal s ∧ step s (.call (.chRelease 0)) = some t ∧ t.fault = true) ∧
    (∃ s t, Reach Legal s ∧ step s (.call (.wgAdd 0 1)) = some t ∧ t.fault = true) ∧
    (∃ s t, Reach Legal s ∧ step s (.call (.cpop false)) = some t ∧ t.fault = true) :=
  ⟨bad [.on 1 (.call (.chMake 0)), .on 1 (.call (.chRelease 0))] _ (by decide +kernel),
   bad [.on 1 (.call (.chMake 0)), .on 1 (.call .start), .on 2 (.call (.recv 0 MAX))] _ (by decide +kernel),
   bad [.on 1 (.call (.wgAdd 0 2147483647))] _ (by decide +kernel),
   bad [] _ (by decide +kernel)⟩

end Neco.Rt
