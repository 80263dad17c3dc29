import Verif.Proof.Obj2
/-! # C69, C70, C71: objects belong to one runtime; wrong calls are refused; `neco_lasterr` -/
namespace Neco.Obj
open Neco.Err

/-! ## Concrete executions -/

/-- run a list of actions -/
def run (w : W) : List Act → Option W
  | [] => some w
  | a :: l => match step w a with
    | none => none
    | some w' => run w' l

theorem reach_run {w w' : W} {l : List Act} (r : Reach any w) (h : run w l = some w') : Reach any w' := by
  induction l generalizing w with
  | nil => cases h; exact r
  | cons a l ih =>
    unfold run at h
    split at h
    · cases h
    · next hs => exact ih (r.step trivial hs) h

/-- a test for `Valid`, `NoRace` and `NoSteal` when only the threads below `n` do anything -/
def validB (w : W) : Act → Bool
  | .call _ c => (objects c).all (fun o => match o with | none => true | some o => (w.obj o).isSome)
  | _ => true
def raceB (n : Nat) (w : W) : Act → Bool
  | .call t c => (objects c).all (fun o => match o with
    | none => true
    | some o => match w.obj o with
      | some ⟨0, _⟩ => (List.range n).all (fun u => decide (u = t) || match (w.th u).pc with | .idle => true | .chk d _ => !decide (some o ∈ objects d))
      | _ => true)
  | _ => true
def stealB (w : W) : Act → Bool
  | .call t (.muInit (some o)) | .call t (.wgInit (some o)) | .call t (.cvInit (some o)) =>
    match (w.th t).rt, w.obj o with
    | some k, some b => decide (b.rtid = 0) || decide (b.rtid = k)
    | _, _ => true
  | _ => true

def actorB (n : Nat) : Act → Bool
  | .zero _ => true
  | .call t _ | .go t | .touch t _ _ | .drop t _ | .ret t .. => decide (t < n)

theorem validB_ok {w : W} {a : Act} (h : validB w a = true) : Valid w a := by
  cases a with
  | call t c =>
    intro o ho hn
    have := List.all_eq_true.mp h (some o) ho
    simp [hn] at this
  | _ => trivial

theorem raceB_ok {n : Nat} {w : W} {a : Act} (hi : ∀ u, n ≤ u → (w.th u).pc = .idle) (h : raceB n w a = true) : NoRace w a := by
  cases a with
  | call t c =>
    intro o ho hz u d hut hh hd
    obtain ⟨l, hl⟩ := hh
    obtain ⟨⟨r, tc⟩, hb, hr⟩ := hz
    simp at hr; subst hr
    have h1 := List.all_eq_true.mp h (some o) ho
    simp only [hb] at h1
    by_cases hu : u < n
    · have h2 := List.all_eq_true.mp h1 u (List.mem_range.mpr hu)
      simp [hut, hl] at h2
      exact h2 hd
    · rw [hi u (by omega)] at hl; cases hl
  | _ => trivial

theorem stealB_ok {w : W} {a : Act} (h : stealB w a = true) : NoSteal w a := by
  cases a with
  | call t c =>
    intro hi o k ho hr ⟨b, hb, h0, hk⟩
    cases c with
    | muInit m => simp [Uses, objects] at ho; subst ho; simp [stealB, hr, hb, h0, hk] at h
    | wgInit m => simp [Uses, objects] at ho; subst ho; simp [stealB, hr, hb, h0, hk] at h
    | cvInit m => simp [Uses, objects] at ho; subst ho; simp [stealB, hr, hb, h0, hk] at h
    | _ => exact hi
  | _ => trivial

/-- run a list of actions of the threads below `n`, if they all pass a test -/
def runIf (ok : W → Act → Bool) (n : Nat) (w : W) : List Act → Option W
  | [] => some w
  | a :: l => if ok w a && actorB n a then match step w a with
    | none => none
    | some w' => runIf ok n w' l
    else none

theorem reach_runIf {P : W → Act → Prop} {ok : W → Act → Bool} {n : Nat} (hP : ∀ w a, (∀ u, n ≤ u → (w.th u).pc = .idle) → ok w a = true → P w a) {w w' : W} {l : List Act}
    (r : Reach P w) (hi : ∀ u, n ≤ u → (w.th u).pc = .idle) (h : runIf ok n w l = some w') : Reach P w' := by
  induction l generalizing w with
  | nil => cases h; exact r
  | cons a l ih =>
    unfold runIf at h
    split at h
    · next hc =>
      simp only [Bool.and_eq_true] at hc
      split at h
      · cases h
      · next hs =>
        refine ih (r.step (hP w a hi hc.1) hs) ?_ h
        intro u hu
        rw [step_other hs]
        · exact hi u hu
        · have := hc.2
          cases a <;> simp [actor, actorB] at this ⊢ <;> omega
    · cases h

def carefulB (n : Nat) (w : W) (a : Act) : Bool := validB w a && (raceB n w a && stealB w a)
theorem carefulB_ok (n : Nat) (w : W) (a : Act) (hi : ∀ u, n ≤ u → (w.th u).pc = .idle) (h : carefulB n w a = true) : Careful w a := by
  simp only [carefulB, Bool.and_eq_true] at h
  exact ⟨validB_ok h.1, raceB_ok hi h.2.1, stealB_ok h.2.2⟩

/-- two threads below `2` only -/
theorem witness {l : List Act} {w : W} (h : runIf (carefulB 2) 2 init l = some w) : Reach Careful w :=
  reach_runIf (carefulB_ok 2) .init (fun _ _ => rfl) h

/-- A thread starts a runtime: the call, its one check, and in. -/
def boot (t : Nat) : List Act := [.call t (.start true 0), .go t, .go t]
/-- A call that needs `n` steps at its head. -/
def doCall (t : Nat) (c : Call) (n : Nat) : List Act := .call t c :: List.replicate n (.go t)

/-! ## C70 -/

theorem refusal_eq (c : Call) (k : Int) : refusal c k = answer c k := by
  cases c with
  | posix p => cases p <;> rfl
  | _ => rfl

/-- **C70** A call is refused only for a reason, with the code that belongs to it, and changes
nothing: no object, nothing in another thread. -/
theorem C70_refused {w w' : W} {t : Nat} {c : Call} (r : Reach any w) (h : Head w t c) (hs : step w (.go t) = some w') (hr : Refused w w' t) :
    (∃ k, (w'.th t).last = some (c, answer c k) ∧
      ((k = INVAL ∧ ¬ Legal c) ∨
       (k = PERM ∧ ¬ Free c ∧ (w.th t).rt = none) ∨
       (k = PERM ∧ MainOnly c ∧ (w.th t).main = false) ∨
       (k = PERM ∧ ∃ j o, (w.th t).rt = some j ∧ Uses c o ∧ (Foreign w j o ∨ (Zero w o ∧ Handle c))) ∨
       (k = NOTGENERATOR ∧ c = .genYield none))) ∧
    w'.obj = w.obj ∧ (∀ u, u ≠ t → w'.th u = w.th u) ∧ (w'.th t).rt = (w.th t).rt := by
  obtain ⟨l, hl⟩ := h
  obtain ⟨hr1, hr2⟩ := hr
  cases step_kind hs with
  | enter hp e =>
    subst e
    obtain ⟨root, ho⟩ := enter_ops w t _
    rw [ho] at hr2
    exact absurd hr2 (by intro h; have := congrArg List.length h; simp at this)
  | @refuse _ c' q l' k hp e y =>
    rw [hl] at hp; cases hp
    subst e
    obtain ⟨pre, suf, H⟩ := reach_at r hl
    have he : checks c = pre ++ q :: l' := by
      rcases H.here with h | ⟨o, h, m⟩
      · rw [h]; exact H.eq
      · cases h; exact y.elim
    refine ⟨⟨k, by simp [refuse, refusal_eq], checks_why he H.done y⟩, rfl, fun u hu => refuse_ne _ _ _ _ hu, by simp [refuse]⟩
  | pass hp e => subst e; simp at hr1
  | lazy hp e => subst e; simp at hr1
  | init hp hr hb e => subst e; simp at hr1

/-- An illegal argument is the first thing such a function looks at. -/
theorem args_first {c : Call} (hf : ArgsFirst c) (hl : ¬ Legal c) : ∃ q l, checks c = q :: l ∧ (q = .arg false ∨ q = .own none ∨ q = .lazy none) := by
  cases c <;> simp only [ArgsFirst] at hf <;> simp only [Legal] at hl <;> simp [checks] <;> simp_all [INT_MAX] <;> omega

/-- **C70** A call with an illegal argument is told so (`NECO_INVAL`), also when other things are
wrong with it: no runtime, the wrong thread. -/
theorem C70_args_first {w w' : W} {t : Nat} {c : Call} (r : Reach any w) (h : Head w t c) (hf : ArgsFirst c) (hl : ¬ Legal c) (hs : step w (.go t) = some w') :
    Refused w w' t ∧ (w'.th t).last = some (c, answer c INVAL) := by
  obtain ⟨l, hp⟩ := h
  obtain ⟨q, rest, he, hq⟩ := args_first hf hl
  obtain ⟨pre, suf, H⟩ := reach_at r hp
  have hpre : pre = [] := by
    cases pre with
    | nil => rfl
    | cons p pre =>
      have := H.eq; rw [he] at this; simp only [List.cons_append, List.cons.injEq] at this
      have hd := H.done q (by rw [this.1]; simp)
      rcases hq with rfl | rfl | rfl <;> simp [Done] at hd
  subst hpre
  have hl' : l = q :: rest := by
    rcases H.here with h | ⟨o, h, m⟩
    · rw [h, ← he]; simpa using H.eq.symm
    · simp at m
  subst hl'
  simp only [step, hp] at hs
  rcases hq with rfl | rfl | rfl <;> simp [check] at hs <;> subst hs <;> simp [Refused, refuse, refusal_eq]

/-- `neco_mutex_lock(NULL)` and `neco_pipe(NULL)` of a thread without a runtime -/
example : ∃ w w', Reach any w ∧ Head w 0 (.pipe false) ∧ ArgsFirst (.pipe false) ∧ ¬ Legal (.pipe false) ∧ (w.th 0).rt = none ∧ step w (.go 0) = some w' ∧ (w'.th 0).lasterr = INVAL ∧ (w'.th 0).last = some (.pipe false, -1) :=
  ⟨_, _, reach_run (l := [.call 0 (.pipe false)]) .init rfl, ⟨_, rfl⟩, trivial, by simp [Legal], rfl, rfl, rfl, rfl⟩
example : ∃ w w', Reach any w ∧ Head w 0 (.mu .lock none) ∧ ¬ Legal (.mu .lock none) ∧ (w.th 0).rt = none ∧ step w (.go 0) = some w' ∧ (w'.th 0).last = some (.mu .lock none, INVAL) :=
  ⟨_, _, reach_run (l := [.call 0 (.mu .lock none)]) .init rfl, ⟨_, rfl⟩, by simp [Legal], rfl, rfl, rfl⟩

/-- **C70** is not so for `neco_dial`: the same mistake is `NECO_INVAL` inside a runtime and
`NECO_PERM` outside of one. -/
theorem C70_args_first_not_general : ¬ ∀ (w w' : W) (t : Nat) (c : Call), Reach any w → Head w t c → ¬ Legal c → step w (.go t) = some w' → Refused w w' t →
    (w'.th t).last = some (c, answer c INVAL) := by
  intro h
  have := h _ _ 0 (.dial none none) (reach_run (l := [.call 0 (.dial none none)]) .init rfl) ⟨_, rfl⟩ (by simp [Legal]) rfl ⟨rfl, rfl⟩
  revert this; decide

/-- **C70** The body of a call runs only if the arguments are legal and the thread may make it. -/
theorem C70_admitted {w w' : W} {t : Nat} {c : Call} (r : Reach any w) (h : Head w t c) (hs : step w (.go t) = some w') (hr : Admitted w w' t c) :
    Legal c ∧ (¬ Free c → (w.th t).rt ≠ none) ∧ (MainOnly c → (w.th t).main = true) ∧ c ≠ .genYield none := by
  obtain ⟨l, hl⟩ := h
  obtain ⟨hr1, root, hr2⟩ := hr
  have hlen : (w'.th t).ops ≠ (w.th t).ops := by rw [hr2]; intro h; have := congrArg List.length h; simp at this
  cases step_kind hs with
  | enter hp e =>
    rw [hl] at hp; cases hp
    obtain ⟨pre, suf, H⟩ := reach_at r hl
    have he : checks c = pre := by
      rcases H.here with h | ⟨o, h, m⟩
      · subst h; simpa using H.eq
      · cases h
    obtain ⟨h1, h2, h3, h4⟩ := checks_done (by rw [he]; exact H.done)
    exact ⟨h1, fun hf => by have := h2 hf; cases hx : (w.th t).rt <;> simp_all, h3, h4⟩
  | refuse hp e y => subst e; exact absurd (by simp [refuse]) hlen
  | pass hp e => subst e; simp at hr1
  | lazy hp e => subst e; simp at hr1
  | init hp hr hb e => subst e; simp at hr1

/-- **C70** A call that has changed an object is not refused any more, whatever the other threads
do: the next step of the thread enters its body.  (Except for `neco_cond_wait`.) -/
theorem C70_no_effect_partial {w w' : W} {t : Nat} {c : Call} (r : Reach any w) (h : Head w t c) (hc : ∀ a b, c ≠ .cvWait a b) (hs : step w (.go t) = some w') (ho : w'.obj ≠ w.obj) :
    (w'.th t).pc = .chk c [] := by
  obtain ⟨l, hl⟩ := h
  cases step_kind hs with
  | enter hp e => subst e; exact absurd (enter_obj _ _ _) ho
  | refuse hp e y => subst e; exact absurd rfl ho
  | pass hp e => subst e; exact absurd rfl ho
  | lazy hp e => subst e; exact absurd rfl ho
  | @init _ c' l' o k b hp hr hb e =>
    rw [hl] at hp; cases hp
    subst e
    obtain ⟨pre, suf, H⟩ := reach_at r hl
    have heq := H.eq
    have : l' = [] := by
      rcases H.here with h | ⟨o', h, m⟩
      · subst h
        have hm : Check.init (some o) ∈ checks c := by rw [heq]; simp
        have hi := (init_obj hm).2.1
        have h3 : ∀ x, [Check.arg x, Check.rt, Check.init (some o)] = pre ++ Check.init (some o) :: l' → l' = [] := by
          intro x h
          match pre, h with
          | [], h => simp at h
          | [_], h => simp at h
          | [_, _], h => simp at h; exact h.2.2
          | [_, _, _], h => simp at h
          | _ :: _ :: _ :: _ :: _, h => simp at h
        cases c with
        | muInit m => simp [checks] at hm; subst hm; exact h3 _ heq
        | wgInit m => simp [checks] at hm; subst hm; exact h3 _ heq
        | cvInit m => simp [checks] at hm; subst hm; exact h3 _ heq
        | _ => exact hi.elim
      · cases h
        have hm : Check.lazy (some o) ∈ checks c := by rw [heq]; simp [m]
        have h1 : ∀ x : Check, [x] = pre ++ l' → l' = [] := by
          intro x h
          match pre, h with
          | [], h => simp at m
          | [_], h => simp at h; exact h.2
          | _ :: _ :: _, h => simp at h
        cases c with
        | cvWait a b => exact absurd rfl (hc a b)
        | mu op m => exact h1 _ heq
        | wg op m => exact h1 _ heq
        | cvSignal m => exact h1 _ heq
        | cvBroadcast m => exact h1 _ heq
        | _ => simp [checks] at hm
    simp [this]

/-- how many steps a list of checks can take -/
def weight : List Check → Nat
  | [] => 1
  | .lazy _ :: l => 2 + weight l
  | _ :: l => 1 + weight l

/-- **C70** A call does not hang at its head: a thread that is given the objects it names gets, by
its own steps alone, either a refusal or into the body. -/
theorem C70_answered {w : W} {t : Nat} {c : Call} (r : Reach any w) (h : Head w t c) (hv : ∀ o, Uses c o → w.obj o ≠ none) :
    ∃ n w', run w (List.replicate n (.go t)) = some w' ∧ (w'.th t).pc = .idle := by
  obtain ⟨l, hl⟩ := h
  generalize hn : weight l = n
  induction n using Nat.strongRecOn generalizing w l with
  | _ n ih =>
    have main : ∃ w1, step w (.go t) = some w1 := by
      unfold step
      dsimp only
      rw [hl]
      cases l with
      | nil => exact ⟨_, rfl⟩
      | cons q l =>
        dsimp only
        obtain ⟨pre, suf, H⟩ := reach_at r hl
        have hu : ∀ o, (q = .own (some o) ∨ q = .lazy (some o) ∨ q = .init (some o)) → w.obj o ≠ none := by
          intro o hq
          apply hv
          rcases H.here with h | ⟨o', h, m⟩
          · subst h
            have hm : q ∈ checks c := by rw [H.eq]; simp
            rcases hq with rfl | rfl | rfl
            · exact (own_obj hm).1
            · exact (lazy_obj hm).1
            · exact (init_obj hm).1
          · cases h
            rcases hq with hq | hq | hq <;> cases hq
            exact (lazy_obj (by rw [H.eq]; simp [m])).1
        unfold check
        cases q with
        | arg ok => exact ⟨_, rfl⟩
        | rt => exact ⟨_, rfl⟩
        | main => exact ⟨_, rfl⟩
        | gen ok => exact ⟨_, rfl⟩
        | own o =>
          cases o with
          | none => exact ⟨_, rfl⟩
          | some o =>
            cases hb : w.obj o with
            | none => exact absurd hb (hu o (.inl rfl))
            | some b => cases hr : (w.th t).rt <;> simp [hb, hr]
        | lazy o =>
          cases o with
          | none => exact ⟨_, rfl⟩
          | some o =>
            cases hb : w.obj o with
            | none => exact absurd hb (hu o (.inr (.inl rfl)))
            | some b => cases hr : (w.th t).rt <;> simp [hb, hr]
        | init o =>
          have hd : o.isSome = true ∧ (w.th t).rt.isSome = true := by
            rcases H.here with h | ⟨o', h, m⟩
            · subst h
              have heq := H.eq
              have hm : Check.init o ∈ checks c := by rw [heq]; simp
              have hi := (init_obj hm).2.1
              have h3 : [Check.arg o.isSome, Check.rt, Check.init o] = pre ++ Check.init o :: l → o.isSome = true ∧ (w.th t).rt.isSome = true := by
                intro h
                match pre, h, H.done with
                | [], h, _ => simp at h
                | [_], h, _ => simp at h
                | [a, b], h, hd =>
                  simp at h
                  obtain ⟨rfl, rfl, _⟩ := h
                  have h1 := hd (.arg o.isSome) (by simp)
                  have h2 := hd .rt (by simp)
                  exact ⟨h1, h2⟩
                | [_, _, _], h, _ => simp at h
                | _ :: _ :: _ :: _ :: _, h, _ => simp at h
              cases c with
              | muInit m => simp [checks] at hm; subst hm; exact h3 heq
              | wgInit m => simp [checks] at hm; subst hm; exact h3 heq
              | cvInit m => simp [checks] at hm; subst hm; exact h3 heq
              | _ => exact hi.elim
            · cases h
              exact H.done _ m
          cases o with
          | none => simp at hd
          | some o =>
            cases hb : w.obj o with
            | none => exact absurd hb (hu o (.inr (.inr rfl)))
            | some b => cases hr : (w.th t).rt <;> simp [hb, hr] at hd ⊢
    obtain ⟨w1, hs⟩ := main
    have fin : (w1.th t).pc = .idle → ∃ n w', run w (List.replicate n (.go t)) = some w' ∧ (w'.th t).pc = .idle :=
      fun hi => ⟨1, w1, by simp [run, hs], hi⟩
    have more : ∀ l1, (w1.th t).pc = .chk c l1 → weight l1 < n → (∀ o, w.obj o ≠ none → w1.obj o ≠ none) → ∃ n w', run w (List.replicate n (.go t)) = some w' ∧ (w'.th t).pc = .idle := by
      intro l1 h1 h2 h3
      obtain ⟨m, w', h4, h5⟩ := ih (weight l1) h2 (r.step trivial hs) (fun o hu => h3 o (hv o hu)) l1 h1 rfl
      exact ⟨m + 1, w', by simp [List.replicate_succ, run, hs, h4], h5⟩
    cases step_kind hs with
    | enter hp e => subst e; exact fin (enter_pc _ _ _)
    | refuse hp e y => subst e; exact fin (by simp [refuse])
    | @pass _ c' q l' hp e =>
      rw [hl] at hp; cases hp; subst e
      refine more l' (by simp) ?_ (fun o h => h)
      rw [← hn]; cases q <;> simp [weight] <;> omega
    | @lazy _ c' l' o hp e =>
      rw [hl] at hp; cases hp; subst e
      refine more (.init (some o) :: l') (by simp) ?_ (fun o h => h)
      rw [← hn]; simp [weight] <;> omega
    | @init _ c' l' o k b hp hr hb e =>
      rw [hl] at hp; cases hp; subst e
      refine more l' (by simp) ?_ ?_
      · rw [← hn]; simp [weight]
      · intro p h
        show (w.setO o _).obj p ≠ none
        by_cases hpo : p = o
        · subst hpo; simp
        · rw [setO_ne _ _ hpo]; exact h

/-- **C70** restated: a legal call of a thread that may make it, on objects of its own runtime or
(for mutexes, waitgroups and condition variables) on zero memory, is not refused. -/
theorem C70_served {w w' : W} {t k : Nat} {c : Call} (r : Reach any w) (h : Head w t c) (hs : step w (.go t) = some w') (hl : Legal c) (hg : c ≠ .genYield none)
    (hrt : (w.th t).rt = some k) (hm : MainOnly c → (w.th t).main = true) (ho : ∀ o, Uses c o → Owned w k o ∨ (Zero w o ∧ ¬ Handle c)) : ¬ Refused w w' t := by
  intro hr
  obtain ⟨⟨e, h1, h2⟩, _⟩ := C70_refused r h hs hr
  rcases h2 with ⟨_, h2⟩ | ⟨_, _, h2⟩ | ⟨_, h2, h3⟩ | ⟨_, j, o, hj, hu, hf⟩ | ⟨_, h2⟩
  · exact h2 hl
  · rw [hrt] at h2; cases h2
  · rw [hm h2] at h3; cases h3
  · rw [hrt] at hj; cases hj
    rcases ho o hu with ⟨b, hb, hk⟩ | ⟨⟨b, hb, hz⟩, hh⟩
    · rcases hf with ⟨b', hb', hz', hne⟩ | ⟨⟨b', hb', hz'⟩, hh⟩
      · rw [hb] at hb'; cases hb'; exact hne hk
      · rw [hb] at hb'; cases hb'
        have := (reach_ids r).lt t k hrt
        omega
    · rcases hf with ⟨b', hb', hz', hne⟩ | ⟨_, hh'⟩
      · rw [hb] at hb'; cases hb'; exact hz' hz
      · exact hh hh'
  · exact hg h2

/-- a lock of a mutex in zero memory by the first thread, then by a second one with a runtime of its own -/
def shared : List Act := [.zero 7] ++ boot 0 ++ doCall 0 (.mu .lock (some 7)) 3 ++ [.touch 0 0 7] ++ boot 1 ++ [.call 1 (.mu .unlock (some 7))]

/-- the hypotheses of `C70_refused` are met: the second thread is told `NECO_PERM` -/
example : ∃ w w', Reach any w ∧ Head w 1 (.mu .unlock (some 7)) ∧ step w (.go 1) = some w' ∧ Refused w w' 1 ∧ (w'.th 1).last = some (.mu .unlock (some 7), PERM) ∧ (w'.th 1).lasterr = PERM :=
  ⟨_, _, reach_run (l := shared) .init rfl, ⟨_, rfl⟩, rfl, ⟨rfl, rfl⟩, rfl, rfl⟩
/-- the hypotheses of `C70_admitted` and `C70_served`: the first thread gets in -/
example : ∃ w w', Reach any w ∧ Head w 0 (.mu .lock (some 7)) ∧ step w (.go 0) = some w' ∧ Admitted w w' 0 (.mu .lock (some 7)) ∧ (w.th 0).rt = some 1 ∧ Owned w 1 7 :=
  ⟨_, _, reach_run (l := [.zero 7] ++ boot 0 ++ doCall 0 (.mu .lock (some 7)) 2) .init rfl, ⟨_, rfl⟩, rfl, ⟨rfl, false, rfl⟩, rfl, ⟨_, rfl, rfl⟩⟩
/-- the hypotheses of `C70_no_effect_partial`: the step that initialises the mutex -/
example : ∃ w w', Reach any w ∧ Head w 0 (.mu .lock (some 7)) ∧ step w (.go 0) = some w' ∧ w'.obj ≠ w.obj :=
  ⟨_, _, reach_run (l := [.zero 7] ++ boot 0 ++ doCall 0 (.mu .lock (some 7)) 1) .init rfl, ⟨_, rfl⟩, rfl, fun h => by
    have := congrFun h 7
    simp [W.setO, W.setT] at this
    revert this; decide⟩

theorem step_main {w w' : W} {a : Act} (h : step w a = some w') (u : Nat) : (w'.th u).main = (w.th u).main := by
  cases a with
  | go t =>
    simp only [step] at h
    split at h
    · cases h
    · cases h
      unfold enter
      split <;> (simp only [W.setT]; split <;> simp_all)
    · unfold check at h
      dsimp only at h
      repeat' split at h
      all_goals first
        | (cases h; done)
        | (cases h; simp only [refuse, W.setT, W.setO]; split <;> simp_all)
  | _ =>
    simp only [step] at h
    repeat' split at h
    all_goals first
      | (cases h; done)
      | (cases h; rfl)
      | (cases h; simp only [W.setT, W.setO]; split <;> simp_all)

/-- **C70** The main thread of the process stays the main thread, and only there the signal functions do anything. -/
theorem C70_main {w : W} (r : Reach any w) (t : Nat) : ((w.th t).main = true ↔ t = 0) ∧
    ∀ w' c, Head w t c → step w (.go t) = some w' → Admitted w w' t c → MainOnly c → t = 0 := by
  have key : (w.th t).main = true ↔ t = 0 := by
    induction r with
    | init => simp [init]
    | step r _ hs ih => rw [step_main hs]; exact ih
  exact ⟨key, fun w' c h hs ha hm => key.mp ((C70_admitted r h hs ha).2.2.1 hm)⟩

/-- **C70** is false of `neco_cond_wait`: on a condition variable in zero memory, with a null mutex,
it returns `NECO_INVAL` and has bound the condition variable to the runtime; another thread is then
refused. -/
theorem C70_no_effect_not_general : ¬ ∀ (w w' : W) (t : Nat) (c : Call), Reach any w → Head w t c → step w (.go t) = some w' → w'.obj ≠ w.obj → (w'.th t).pc = .chk c [] := by
  intro h
  have := h _ _ 0 (.cvWait (some 7) none) (reach_run (l := [.zero 7] ++ boot 0 ++ doCall 0 (.cvWait (some 7) none) 1) .init rfl) ⟨_, rfl⟩ rfl (fun h => by
    have := congrFun h 7
    simp [W.setO, W.setT] at this
    revert this; decide)
  revert this; decide
/-- the whole of it -/
theorem C70_cond_wait_effect : ∃ w w', Reach Careful w ∧ (w.th 0).pc = .idle ∧ (w.th 0).rt = some 1 ∧ Zero w 7 ∧
    run w (doCall 0 (.cvWait (some 7) none) 3) = some w' ∧ (w'.th 0).last = some (.cvWait (some 7) none, INVAL) ∧ Owned w' 1 7 :=
  ⟨_, _, witness (l := [.zero 7] ++ boot 0) rfl, rfl, rfl, ⟨_, rfl, rfl⟩, rfl, rfl, ⟨_, rfl, rfl⟩⟩

/-! ## C69 -/

/-- **C69** The contents of an object are touched only by calls of one runtime, the one it belongs
to, for all interleavings of all threads. -/
theorem C69_isolated_partial {w : W} {o : Nat} {b : Obj} (r : Reach Careful w) (hb : w.obj o = some b) : ∀ k ∈ b.touched, k = b.rtid :=
  ((reach_iso r).tch o b hb).2

/-- **C69** The body of a call runs only on objects of the runtime of the caller. -/
theorem C69_admitted_partial {w w' : W} {t : Nat} {c : Call} (r : Reach Careful w) (h : Head w t c) (hs : step w (.go t) = some w') (hr : Admitted w w' t c) :
    ∀ o, Uses c o → ∃ k, (w.th t).rt = some k ∧ Owned w k o := by
  intro o hu
  obtain ⟨l, hl⟩ := h
  obtain ⟨hr1, root, hr2⟩ := hr
  have hlen : (w'.th t).ops ≠ (w.th t).ops := by rw [hr2]; intro h; have := congrArg List.length h; simp at this
  cases step_kind hs with
  | enter hp e =>
    rcases (reach_iso r).seen t _ _ o hp (by rw [hl] at hp; cases hp; exact hu) with h | h
    · simp [Looks] at h
    · exact h
  | refuse hp e y => subst e; exact absurd (by simp [refuse]) hlen
  | pass hp e => subst e; simp at hr1
  | lazy hp e => subst e; simp at hr1
  | init hp hr hb e => subst e; simp at hr1

/-- **C69** An object never changes hands. -/
theorem C69_stays_partial {w w' : W} {o k : Nat} (r : Reach Careful w) (ho : Owned w k o) (hk : k ≠ 0) (hs : Steps Careful w w') : Owned w' k o := by
  have : Reach Careful w' ∧ Owned w' k o := by
    induction hs with
    | refl => exact ⟨r, ho⟩
    | step _ hok hst ih =>
      obtain ⟨r', b, hb, rfl⟩ := ih
      obtain ⟨⟨b', h1, h2⟩, _⟩ := step_owner (reach_iso r') hst hb hk
      exact ⟨r'.step hok hst, b', h1, h2⟩
  exact this.2

/-- **C69** An object of a runtime that has ended stays as it is for ever, and no call on it is
admitted again, in no thread and in no later runtime. -/
theorem C69_ended_partial {w w' : W} {o : Nat} {b : Obj} (r : Reach Careful w) (hb : w.obj o = some b) (hz : b.rtid ≠ 0) (he : ∀ t, (w.th t).rt ≠ some b.rtid) (hs : Steps Careful w w') :
    w'.obj o = some b ∧ ∀ t c w2, Head w' t c → Uses c o → step w' (.go t) = some w2 → ¬ Admitted w' w2 t c := by
  have : Reach Careful w' ∧ w'.obj o = some b ∧ b.rtid < w'.next ∧ ∀ t, (w'.th t).rt ≠ some b.rtid := by
    induction hs with
    | refl => exact ⟨r, hb, ((reach_iso r).tch o b hb).1, he⟩
    | step _ hok hst ih =>
      obtain ⟨r', hb', hlt, hg⟩ := ih
      have h1 := (step_owner (reach_iso r') hst hb' hz).2 hg
      have h2 := step_gone (reach_ids r') hst hlt hg
      exact ⟨r'.step hok hst, h1, h2⟩
  obtain ⟨r', hb', _, hg⟩ := this
  refine ⟨hb', ?_⟩
  intro t c w2 h hu hst ha
  obtain ⟨k, hk, b2, h2, h3⟩ := C69_admitted_partial r' h hst ha o hu
  rw [hb'] at h2; cases h2
  exact hg t (by rw [h3]; exact hk)

/-- the hypotheses are met: a mutex first used by the runtime of the first thread, which ends; the
second thread then has a runtime and tries -/
example : ∃ w b, Reach Careful w ∧ w.obj 7 = some b ∧ b.touched = [1] ∧ (w.th 1).last = some (.mu .unlock (some 7), PERM) :=
  ⟨_, _, witness (l := shared ++ [.go 1]) rfl, rfl, rfl, rfl⟩
example : ∃ w b, Reach Careful w ∧ w.obj 7 = some b ∧ b.rtid ≠ 0 ∧ (w.th 0).rt = none ∧ (w.th 1).last = some (.mu .unlock (some 7), PERM) :=
  ⟨_, _, witness (l := [.zero 7] ++ boot 0 ++ doCall 0 (.mu .lock (some 7)) 3 ++ [.touch 0 0 7, .ret 0 0 0 0 false none, .ret 0 0 0 0 false none] ++ boot 1 ++ doCall 1 (.mu .unlock (some 7)) 1) rfl,
    rfl, by decide, rfl, rfl⟩
/-- a channel made by one thread -/
example : ∃ w b, Reach Careful w ∧ w.obj 3 = some b ∧ b.touched = [1] ∧ (w.th 1).last = some (.chan .send (some 3), PERM) :=
  ⟨_, _, witness (l := boot 0 ++ doCall 0 (.chanMake true 4 0) 3 ++ [.ret 0 0 0 0 false (some 3)] ++ doCall 0 (.chan .recv (some 3)) 2 ++ [.touch 0 0 3] ++ boot 1 ++ doCall 1 (.chan .send (some 3)) 1) rfl,
    rfl, rfl, rfl⟩

/-- **C69** is false if two threads make their first calls on a mutex in zero memory at the same
time: both find it uninitialised, both initialise it, and both use it. -/
theorem C69_race_not_general : ¬ ∀ (w : W) (o : Nat) (b : Obj), Reach (fun w a => Valid w a ∧ NoSteal w a) w → w.obj o = some b → ∀ k ∈ b.touched, k = b.rtid := by
  intro h
  have r : ∃ w b, Reach (fun w a => Valid w a ∧ NoSteal w a) w ∧ w.obj 7 = some b ∧ b.touched = [2, 1] ∧ b.rtid = 1 :=
    ⟨_, _, reach_runIf (ok := fun w a => validB w a && stealB w a) (n := 2)
      (fun w a _ h => by simp only [Bool.and_eq_true] at h; exact ⟨validB_ok h.1, stealB_ok h.2⟩) .init (fun _ _ => rfl)
      (l := [.zero 7] ++ boot 0 ++ boot 1 ++ doCall 0 (.mu .lock (some 7)) 1 ++ doCall 1 (.mu .lock (some 7)) 2 ++ [.go 0, .go 0, .touch 0 0 7, .go 1, .touch 1 0 7]) rfl, rfl, rfl, rfl⟩
  obtain ⟨w, b, r, hb, ht, hr⟩ := r
  have := h w 7 b r hb 2 (by simp [ht])
  omega

/-- **C69** is false if a runtime calls `neco_mutex_init` on a mutex of another: the call is not
refused, it empties the mutex (a coroutine may be waiting in it) and takes it over. -/
theorem C69_init_not_general : ¬ ∀ (w : W) (o : Nat) (b : Obj), Reach (fun w a => Valid w a ∧ NoRace w a) w → w.obj o = some b → ∀ k ∈ b.touched, k = b.rtid := by
  intro h
  have r : ∃ w b, Reach (fun w a => Valid w a ∧ NoRace w a) w ∧ w.obj 7 = some b ∧ b.touched = [1] ∧ b.rtid = 2 :=
    ⟨_, _, reach_runIf (ok := fun w a => validB w a && raceB 2 w a) (n := 2)
      (fun w a hi h => by simp only [Bool.and_eq_true] at h; exact ⟨validB_ok h.1, raceB_ok hi h.2⟩) .init (fun _ _ => rfl)
      (l := [.zero 7] ++ boot 0 ++ boot 1 ++ doCall 0 (.mu .lock (some 7)) 3 ++ [.touch 0 0 7] ++ doCall 1 (.muInit (some 7)) 4 ++ [.touch 0 0 7]) rfl, rfl, rfl, rfl⟩
  obtain ⟨w, b, r, hb, ht, hr⟩ := r
  have := h w 7 b r hb 1 (by simp [ht])
  omega

/-! ## C71 -/

/-- The refusals `neco_lasterr` does not hear of: those of the four functions that take a mutex, and
those of `neco_gen_yield` outside of a runtime or outside of a generator. -/
def Silent (x : Thread) : Call → Prop
  | .mu .lock _ | .mu .rdlock _ | .mu .trylock _ | .mu .tryrdlock _ => True
  | .genYield g => x.rt = none ∨ g = none
  | _ => False

/-- **C71** When a call has returned, `neco_lasterr` tells how it ended. -/
theorem C71_returned_partial {w w' : W} {t i : Nat} {r e : Int} {part : Bool} {made : Option Nat} {c : Call} {root : Bool} (hop : (w.th t).ops[i]? = some (c, root)) (hc : ∀ s, c ≠ .stream .readByte s)
    (hs : step w (.ret t i r e part made) = some w') : (w'.th t).last = some (c, r) ∧ (w'.th t).lasterr = told c r e part := by
  cases step_kind hs with
  | ret hp hop' hroot w1 hw1 e2 =>
    rw [hop] at hop'; cases hop'
    subst e2
    simp only [setT_same, true_and]
    have g : ∀ r : Int, (errorGuard r e false).lasterr = if r = -1 then fromSys e else if r < 0 then r else 0 := by
      intro r
      unfold errorGuard
      by_cases h1 : r = -1
      · subst h1; simp
      · by_cases h2 : r < 0 <;> simp [h1, h2]
    cases c with
    | posix p =>
      cases p with
      | write =>
        simp only [report, told, g]
        by_cases h1 : r = -1
        · subst h1; simp
        · by_cases h2 : r < 0
          · have : ¬ (0 ≤ r) := by omega
            simp [h1, h2, this]
          · have : 0 ≤ r := by omega
            cases part <;> simp [h1, h2, this]
      | _ => simp only [report, told, g]
    | gai =>
      simp only [report, told, g]
      by_cases h1 : r = 0
      · subst h1; simp [OK]
      · by_cases h2 : r = EAI_SYSTEM
        · simp [h2, ERROR, EAI_SYSTEM]
        · simp [h1, h2, GAIERROR]
    | stream op s =>
      cases op with
      | readByte => exact absurd rfl (hc s)
      | _ => simp only [report, told, g]
    | _ => simp only [report, told, g]

/-- **C71** When a call has been refused, `neco_lasterr` is the code it was refused with, also where
the function itself returns -1 or `EAI_SYSTEM`.  (Except for some functions, where it is left as it
was.) -/
theorem C71_refused_partial {w w' : W} {t : Nat} {c : Call} (r : Reach any w) (h : Head w t c) (hs : step w (.go t) = some w') (hr : Refused w w' t) :
    ∃ k, k < 0 ∧ (w'.th t).last = some (c, answer c k) ∧ (¬ Silent (w.th t) c → (w'.th t).lasterr = k) ∧ (Silent (w.th t) c → (w'.th t).lasterr = (w.th t).lasterr) := by
  obtain ⟨l, hl⟩ := h
  obtain ⟨hr1, hr2⟩ := hr
  cases step_kind hs with
  | enter hp e =>
    subst e
    obtain ⟨root, ho⟩ := enter_ops w t _
    rw [ho] at hr2
    exact absurd hr2 (by intro h; have := congrArg List.length h; simp at this)
  | @refuse _ c' q l' k hp e y =>
    rw [hl] at hp; cases hp
    subst e
    have hk : k < 0 := by
      cases q with
      | own o => cases o <;> simp [Why] at y <;> first | (rw [y]; decide) | (rw [y.1]; decide)
      | lazy o => cases o <;> simp [Why] at y <;> first | (rw [y]; decide) | (rw [y.1]; decide)
      | init o => exact y.elim
      | _ => simp [Why] at y; rw [y.2]; decide
    have hq : loud c q = true ↔ ¬ Silent (w.th t) c := by
      cases c with
      | mu op m => cases op <;> simp [loud, Silent]
      | genYield g =>
        obtain ⟨pre, suf, H⟩ := reach_at r hl
        have he : checks (.genYield g) = pre ++ q :: l' := by
          rcases H.here with h | ⟨o, h, m⟩
          · rw [h]; exact H.eq
          · cases h; exact y.elim
        simp only [checks] at he
        have hd := H.done
        match pre, he, hd with
        | [], he, _ => simp at he; obtain ⟨rfl, _⟩ := he; simp [Why] at y; simp [loud, Silent, y.1]
        | [_], he, _ => simp at he; obtain ⟨_, rfl, _⟩ := he; simp [Why] at y; simp [loud, Silent, y.1]
        | [p1, p2], he, hd =>
          simp at he; obtain ⟨rfl, rfl, rfl, _⟩ := he
          have h1 := hd .rt (by simp)
          have h2 := hd (.gen g.isSome) (by simp)
          simp only [Done] at h1 h2
          simp only [loud, Silent, true_iff, not_or]
          constructor
          · intro h; simp [h] at h1
          · intro h; simp [h] at h2
        | _ :: _ :: _ :: p, he, _ => simp at he
      | _ => simp [loud, Silent]
    refine ⟨k, hk, by simp [refuse, refusal_eq], fun hn => ?_, fun hn => ?_⟩
    · simp [refuse, hq.mpr hn]
    · have : loud c q = false := by cases h : loud c q with
        | false => rfl
        | true => exact absurd hn (hq.mp h)
      simp [refuse, this]
  | pass hp e => subst e; simp at hr1
  | lazy hp e => subst e; simp at hr1
  | init hp hr hb e => subst e; simp at hr1

/-- **C71** `neco_lasterr` belongs to the thread: nothing but a call of the same thread that returns
changes it. -/
theorem C71_own {w w' : W} {a : Act} {t : Nat} (hs : step w a = some w') (hne : (w'.th t).lasterr ≠ (w.th t).lasterr) :
    (a = .go t ∧ Refused w w' t) ∨ ∃ i r e part made, a = .ret t i r e part made := by
  by_cases ha : actor a = some t
  · cases step_kind hs with
    | zero => simp [actor] at ha
    | call hp e => simp [actor] at ha; subst ha; subst e; simp at hne
    | enter hp e =>
      simp [actor] at ha; subst ha; subst e
      exfalso; apply hne
      unfold enter; split <;> simp [W.setT]
    | refuse hp e y => simp [actor] at ha; subst ha; subst e; exact .inl ⟨rfl, by simp [Refused, refuse]⟩
    | pass hp e => simp [actor] at ha; subst ha; subst e; simp at hne
    | lazy hp e => simp [actor] at ha; subst ha; subst e; simp at hne
    | init hp hr hb e => simp [actor] at ha; subst ha; subst e; simp at hne
    | touch hp hop r hb hU e => simp [actor] at ha; subst ha; subst e; exact absurd rfl hne
    | drop hp e => simp [actor] at ha; subst ha; subst e; simp at hne
    | ret hp hop hroot w1 hw1 e2 => simp [actor] at ha; subst ha; exact .inr ⟨_, _, _, _, _, rfl⟩
  · exact absurd (by rw [step_other hs ha]) hne

/-- the hypotheses are met: a send on a closed channel, a short write, a read that timed out -/
example : ∃ w w', Reach any w ∧ (w.th 0).ops[0]? = some (.chan .send (some 3), false) ∧ step w (.ret 0 0 CLOSED 0 false none) = some w' ∧ (w'.th 0).lasterr = CLOSED :=
  ⟨_, _, reach_run (l := boot 0 ++ doCall 0 (.chanMake true 4 0) 3 ++ [.ret 0 0 0 0 false (some 3)] ++ doCall 0 (.chan .send (some 3)) 2) .init rfl, rfl, rfl, rfl⟩
example : ∃ w w', Reach any w ∧ step w (.ret 0 0 5 0 true none) = some w' ∧ (w'.th 0).last = some (.posix .write, 5) ∧ (w'.th 0).lasterr = PARTIALWRITE :=
  ⟨_, _, reach_run (l := boot 0 ++ doCall 0 (.posix .write) 2) .init rfl, rfl, rfl, rfl⟩
example : ∃ w w', Reach any w ∧ step w (.ret 0 0 (-1) sysETIMEDOUT false none) = some w' ∧ (w'.th 0).last = some (.posix .read, -1) ∧ (w'.th 0).lasterr = TIMEDOUT :=
  ⟨_, _, reach_run (l := boot 0 ++ doCall 0 (.posix .read) 2) .init rfl, rfl, rfl, rfl⟩
/-- `neco_read` outside of a runtime -/
example : ∃ w w', Reach any w ∧ Head w 0 (.posix .read) ∧ ¬ Silent (w.th 0) (.posix .read) ∧ step w (.go 0) = some w' ∧ Refused w w' 0 ∧ (w'.th 0).last = some (.posix .read, -1) ∧ (w'.th 0).lasterr = PERM :=
  ⟨_, _, reach_run (l := [.call 0 (.posix .read)]) .init rfl, ⟨_, rfl⟩, fun h => h, rfl, ⟨rfl, rfl⟩, rfl, rfl⟩

/-- **C71** is false of the functions that take a mutex (and of `neco_gen_yield`): `neco_mutex_lock`
of a null pointer returns `NECO_INVAL` and `neco_lasterr` still says `NECO_OK`. -/
theorem C71_refused_not_general : ¬ ∀ (w w' : W) (t : Nat) (c : Call), Reach any w → Head w t c → step w (.go t) = some w' → Refused w w' t →
    ∃ k, k < 0 ∧ (w'.th t).last = some (c, answer c k) ∧ (w'.th t).lasterr = k := by
  intro h
  obtain ⟨k, h1, h2, h3⟩ := h _ _ 0 (.mu .lock none) (reach_run (l := boot 0 ++ doCall 0 (.mu .lock none) 0) .init rfl) ⟨_, rfl⟩ rfl ⟨rfl, rfl⟩
  have : (0 : Int) = k := h3
  omega

/-- **C71** is false of `neco_stream_read_byte`: it returns a byte and `neco_lasterr` still tells of
an earlier failure. -/
theorem C71_returned_not_general : ¬ ∀ (w w' : W) (t i : Nat) (r e : Int) (part : Bool) (made : Option Nat) (c : Call) (root : Bool), Reach any w → (w.th t).ops[i]? = some (c, root) →
    step w (.ret t i r e part made) = some w' → (w'.th t).lasterr = told c r e part := by
  intro h
  have := h _ _ 0 0 65 0 true none (.stream .readByte (some 3)) false
    (reach_run (l := boot 0 ++ doCall 0 (.streamMake true 5) 3 ++ [.ret 0 0 0 0 false (some 3)] ++ doCall 0 (.posix .read) 2 ++ [.ret 0 0 (-1) sysETIMEDOUT false none] ++ doCall 0 (.stream .readByte (some 3)) 2) .init rfl) rfl rfl
  revert this; decide

end Neco.Obj
