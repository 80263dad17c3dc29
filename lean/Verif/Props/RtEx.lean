import Verif.Proof.RtCall
/-!
# Concrete executions

`runB ok s acts` executes a list of actions, checking a condition at each; a theorem below turns such an
execution into a witness that a reachable state with some property exists.
-/
namespace Neco.Rt
open Neco.Err

/-- execute a list of actions as long as each is allowed -/
def runB (ok : S → Act → Bool) (s : S) : List Act → Option S
  | [] => some s
  | a :: as => if ok s a = true then (match step s a with | some t => runB ok t as | none => none) else none

/-- `Clean` as a test -/
def cleanB (s : S) : Act → Bool
  | .call c => match s.sco.cur with
    | none => true
    | some i => !(s.lists .resumers).contains (.co i) && !(s.lists .iolist).contains (.co i) && !s.jobs.contains i && !(s.co i).deadlined &&
        (!(c == .start || c == .genStart) || (match s.pool with | [] => true | p :: _ => !p.1.canceled))
  | _ => true

theorem cleanB_clean {s : S} {a : Act} (h : cleanB s a = true) : Clean s a := by
  intro c i ha hc
  subst ha
  simp only [cleanB, hc] at h
  simp only [Bool.and_eq_true, Bool.not_eq_true', List.contains_eq_mem, decide_eq_false_iff_not, Bool.or_eq_true] at h
  obtain ⟨⟨⟨⟨h1, h2⟩, h3⟩, h4⟩, h5⟩ := h
  refine ⟨h1, h2, h3, h4, ?_⟩
  intro hcc p hp
  rcases h5 with h5 | h5
  · rcases hcc with rfl | rfl <;> simp at h5
  · cases hq : s.pool with
    | nil => rw [hq] at hp; cases hp
    | cons q qs => rw [hq] at hp h5; simp at hp; subst hp; simpa using h5

theorem runB_reach {ok : S → Act → Prop} {okB : S → Act → Bool} (hb : ∀ s a, okB s a = true → ok s a) {s t : S} {as : List Act}
    (r : Reach ok s) (h : runB okB s as = some t) : Reach ok t := by
  induction as generalizing s with
  | nil => cases h; exact r
  | cons a as ih =>
    unfold runB at h
    split at h
    · rename_i ho
      split at h
      · rename_i u hu; exact ih (.step r a (hb _ _ ho) hu) h
      · cases h
    · cases h

/-- an execution found by running the model -/
theorem witness {ok : S → Act → Prop} {okB : S → Act → Bool} (hb : ∀ s a, okB s a = true → ok s a) {a e : Bool} {as : List Act} {p : S → Bool}
    (h : (runB okB (init a e) as).any p = true) : ∃ s, Reach ok s ∧ p s = true := by
  cases hr : runB okB (init a e) as with
  | none => rw [hr] at h; cases h
  | some s => rw [hr] at h; exact ⟨s, runB_reach hb (.init a e) hr, h⟩

/-- a clean execution -/
theorem witnessC {a e : Bool} (as : List Act) {p : S → Bool} (h : (runB cleanB (init a e) as).any p = true) : ∃ s, Reach Clean s ∧ p s = true :=
  witness (fun _ _ => cleanB_clean) h
/-- an unrestricted execution -/
theorem witnessA {a e : Bool} (as : List Act) {p : S → Bool} (h : (runB (fun _ _ => true) (init a e) as).any p = true) : ∃ s, Reach any s ∧ p s = true :=
  witness (fun _ _ _ => trivial) h

/-- `Returns` as a test -/
def returnsB (s : S) (i : Nat) (c : Call) (v : Int) (d : Msg) : Bool :=
  match step s .tau with
  | some s' => s'.log == .ret i c v d :: s.log
  | none => false
theorem returnsB_iff {s : S} {i : Nat} {c : Call} {v : Int} {d : Msg} : returnsB s i c v d = true ↔ Returns s i c v d := by
  unfold returnsB Returns
  split
  · rename_i s' hs; simp [hs]
  · rename_i hs; simp [hs]

/-- `n` steps of the library -/
def tau (n : Nat) : List Act := List.replicate n .tau

/-! ### Scripts -/

/-- one step chosen automatically: the library if it can go on, else no events, else the running coroutine yields -/
def autoStep (ok : S → Act → Bool) (s : S) : Option (Act × S) :=
  match (if ok s .tau then step s .tau else none) with
  | some t => some (.tau, t)
  | none => match (if ok s (.events []) then step s (.events []) else none) with
    | some t => some (.events [], t)
    | none => match (if ok s (.call .yield) then step s (.call .yield) else none) with
      | some t => some (.call .yield, t)
      | none => none
/-- go on automatically until `p` holds -/
def drive (ok : S → Act → Bool) (p : S → Bool) : Nat → S → Option S
  | 0, s => if p s then some s else none
  | n + 1, s => if p s then some s else match autoStep ok s with
    | some (_, t) => drive ok p n t
    | none => none
/-- an instruction of a script: do `a`; let coroutine `i` do `a` when it is its turn; go on until `p` -/
inductive Sc
  | raw (a : Act)
  | on (i : Nat) (a : Act)
  | til (p : S → Bool)
/-- is it `i`'s turn to do something? -/
def turn (i : Nat) (s : S) : Bool := s.sco.cur == some i && (s.co i).pc == .user
def script (ok : S → Act → Bool) : List Sc → S → Option S
  | [], s => some s
  | .raw a :: l, s => if ok s a then (match step s a with | some t => script ok l t | none => none) else none
  | .on i a :: l, s => match drive ok (turn i) 100 s with
    | some u => if ok u a then (match step u a with | some t => script ok l t | none => none) else none
    | none => none
  | .til p :: l, s => match drive ok p 100 s with
    | some u => script ok l u
    | none => none

theorem autoStep_ok {ok : S → Act → Bool} {s t : S} {a : Act} (h : autoStep ok s = some (a, t)) : ok s a = true ∧ step s a = some t := by
  unfold autoStep at h
  split at h
  · rename_i h1; cases h; split at h1 <;> first | exact ⟨by assumption, h1⟩ | cases h1
  · split at h
    · rename_i h1; cases h; split at h1 <;> first | exact ⟨by assumption, h1⟩ | cases h1
    · split at h
      · rename_i h1; cases h; split at h1 <;> first | exact ⟨by assumption, h1⟩ | cases h1
      · cases h
theorem drive_reach {ok : S → Act → Prop} {okB : S → Act → Bool} (hb : ∀ s a, okB s a = true → ok s a) {p : S → Bool} {n : Nat} {s t : S}
    (r : Reach ok s) (h : drive okB p n s = some t) : Reach ok t := by
  induction n generalizing s with
  | zero => unfold drive at h; split at h <;> cases h; exact r
  | succ n ih =>
    unfold drive at h; split at h
    · cases h; exact r
    · split at h
      · rename_i a u hu; exact ih (.step r a (hb _ _ (autoStep_ok hu).1) (autoStep_ok hu).2) h
      · cases h
theorem script_reach {ok : S → Act → Prop} {okB : S → Act → Bool} (hb : ∀ s a, okB s a = true → ok s a) {l : List Sc} {s t : S}
    (r : Reach ok s) (h : script okB l s = some t) : Reach ok t := by
  induction l generalizing s with
  | nil => cases h; exact r
  | cons x l ih =>
    cases x with
    | raw a =>
      unfold script at h; split at h
      · rename_i ho; split at h
        · rename_i u hu; exact ih (.step r a (hb _ _ ho) hu) h
        · cases h
      · cases h
    | on i a =>
      unfold script at h; split at h
      · rename_i u hu; split at h
        · rename_i ho; split at h
          · rename_i v hv; exact ih (.step (drive_reach hb r hu) a (hb _ _ ho) hv) h
          · cases h
        · cases h
      · cases h
    | til p =>
      unfold script at h; split at h
      · rename_i u hu; exact ih (drive_reach hb r hu) h
      · cases h
theorem scriptW {ok : S → Act → Prop} {okB : S → Act → Bool} (hb : ∀ s a, okB s a = true → ok s a) {a e : Bool} {l : List Sc} {p : S → Bool}
    (h : (script okB (l ++ [.til p]) (init a e)).any p = true) : ∃ s, Reach ok s ∧ p s = true := by
  cases hr : script okB (l ++ [.til p]) (init a e) with
  | none => rw [hr] at h; cases h
  | some s => rw [hr] at h; exact ⟨s, script_reach hb (.init a e) hr, h⟩
/-- run a clean script, and then go on until `p` -/
theorem scriptC (l : List Sc) {p : S → Bool} (h : (script cleanB (l ++ [.til p]) (init false true)).any p = true) : ∃ s, Reach Clean s ∧ p s = true :=
  scriptW (fun _ _ => cleanB_clean) h
/-- run a script, and then go on until `p` -/
theorem scriptA (l : List Sc) {p : S → Bool} (h : (script (fun _ _ => true) (l ++ [.til p]) (init false true)).any p = true) : ∃ s, Reach any s ∧ p s = true :=
  scriptW (fun _ _ _ => trivial) h
/-- run a clean script, and then go on until a call returns -/
theorem retC (l : List Sc) {i : Nat} {c : Call} {v : Int} {d : Msg} (h : (script cleanB (l ++ [.til (fun s => returnsB s i c v d)]) (init false true)).any (fun s => returnsB s i c v d) = true) :
    ∃ s, Reach Clean s ∧ Returns s i c v d := by
  obtain ⟨s, r, h⟩ := scriptC l h; exact ⟨s, r, returnsB_iff.mp h⟩
/-- the same, saying that the call was made with no wake-up left over -/
theorem retF (l : List Sc) {i : Nat} {c : Call} {v : Int} {d : Msg} (h : (script cleanB (l ++ [.til (fun s => returnsB s i c v d)]) (init false true)).any (fun s => returnsB s i c v d) = true) :
    ∃ s, Fresh i s ∧ Returns s i c v d := by
  obtain ⟨s, r, h⟩ := retC l h; exact ⟨s, h.fresh r, h⟩
/-- run a script, and then go on until a call returns -/
theorem retA (l : List Sc) {i : Nat} {c : Call} {v : Int} {d : Msg} (h : (script (fun _ _ => true) (l ++ [.til (fun s => returnsB s i c v d)]) (init false true)).any (fun s => returnsB s i c v d) = true) :
    ∃ s, Reach any s ∧ Returns s i c v d := by
  obtain ⟨s, r, h⟩ := scriptA l h; exact ⟨s, r, returnsB_iff.mp h⟩

/-- the history when `i` made its last call -/
def hist (i : Nat) (l : List Ev) : List Ev := l.drop ((since i l).length + 1)
/-- `i` is about to return from `c`, which it called when the history was one with `q` -/
def histB (i : Nat) (c : Call) (v : Int) (d : Msg) (q : List Ev → Bool) (s : S) : Bool :=
  returnsB s i c v d && decide (s.log = since i s.log ++ .call i c :: hist i s.log) && q (hist i s.log)
/-- run a clean script, and then go on until a call returns that was made when the history had `q` -/
theorem histC (l : List Sc) {i : Nat} {c : Call} {v : Int} {d : Msg} {q : List Ev → Bool} (h : (script cleanB (l ++ [.til (histB i c v d q)]) (init false true)).any (histB i c v d q) = true) :
    ∃ s b, Reach Clean s ∧ Returns s i c v d ∧ s.log = since i s.log ++ .call i c :: b ∧ q b = true := by
  obtain ⟨s, r, h⟩ := scriptC l h
  simp only [histB, Bool.and_eq_true, decide_eq_true_eq] at h
  exact ⟨s, _, r, returnsB_iff.mp h.1.1, h.1.2, h.2⟩
/-- the same, saying that the call was made with no wake-up left over -/
theorem histF (l : List Sc) {i : Nat} {c : Call} {v : Int} {d : Msg} {q : List Ev → Bool} (h : (script cleanB (l ++ [.til (histB i c v d q)]) (init false true)).any (histB i c v d q) = true) :
    ∃ s b, Fresh i s ∧ Returns s i c v d ∧ s.log = since i s.log ++ .call i c :: b ∧ q b = true := by
  obtain ⟨s, b, r, h, h'⟩ := histC l h; exact ⟨s, b, h.fresh r, h, h'⟩
theorem histA (l : List Sc) {i : Nat} {c : Call} {v : Int} {d : Msg} {q : List Ev → Bool} (h : (script (fun _ _ => true) (l ++ [.til (histB i c v d q)]) (init false true)).any (histB i c v d q) = true) :
    ∃ s b, Reach any s ∧ Returns s i c v d ∧ s.log = since i s.log ++ .call i c :: b ∧ q b = true := by
  obtain ⟨s, r, h⟩ := scriptA l h
  simp only [histB, Bool.and_eq_true, decide_eq_true_eq] at h
  exact ⟨s, _, r, returnsB_iff.mp h.1.1, h.1.2, h.2⟩

/-- coroutine 2 is left in the wake-up list of the main loop by a canceled select, and runs -/
def staleWake : List Act :=
  [.call (.chMake 0), .tau, .call .start, .call (.select [0] MAX), .tau, .call .start, .call (.close 0), .tau, .call (.cancel 2 MAX), .tau, .tau, .tau, .tau]

end Neco.Rt
