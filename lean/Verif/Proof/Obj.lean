import Verif.Spec.Obj
/-! # Invariants of the object model -/
namespace Neco.Obj
open Neco.Err

@[simp] theorem setT_obj (w : W) (t : Nat) (x : Thread) : (w.setT t x).obj = w.obj := rfl
@[simp] theorem setT_next (w : W) (t : Nat) (x : Thread) : (w.setT t x).next = w.next := rfl
@[simp] theorem setT_same (w : W) (t : Nat) (x : Thread) : (w.setT t x).th t = x := by simp [W.setT]
theorem setT_ne (w : W) {t u : Nat} (x : Thread) (h : u ≠ t) : (w.setT t x).th u = w.th u := by simp [W.setT, h]
@[simp] theorem setO_th (w : W) (o : Nat) (x : Obj) : (w.setO o x).th = w.th := rfl
@[simp] theorem setO_next (w : W) (o : Nat) (x : Obj) : (w.setO o x).next = w.next := rfl
@[simp] theorem setO_same (w : W) (o : Nat) (x : Obj) : (w.setO o x).obj o = some x := by simp [W.setO]
theorem setO_ne (w : W) {o p : Nat} (x : Obj) (h : p ≠ o) : (w.setO o x).obj p = w.obj p := by simp [W.setO, h]

/-- a check that was passed, as far as the thread alone is concerned -/
def Done (x : Thread) : Check → Prop
  | .arg ok | .gen ok => ok = true
  | .rt => x.rt.isSome = true
  | .main => x.rt.isSome = true ∧ x.main = true
  | .own o | .lazy o | .init o => o.isSome = true ∧ x.rt.isSome = true

/-- why a check refuses, with its code -/
def Why (w : W) (x : Thread) : Check → Int → Prop
  | .arg ok, k => ok = false ∧ k = INVAL
  | .gen ok, k => ok = false ∧ k = NOTGENERATOR
  | .rt, k => x.rt = none ∧ k = PERM
  | .main, k => (x.rt = none ∨ x.main = false) ∧ k = PERM
  | .own none, k | .lazy none, k => k = INVAL
  | .own (some o), k => k = PERM ∧ ∃ b, w.obj o = some b ∧ (x.rt = none ∨ ∃ j, x.rt = some j ∧ b.rtid ≠ j)
  | .lazy (some o), k => k = PERM ∧ ∃ b, w.obj o = some b ∧ (x.rt = none ∨ ∃ j, x.rt = some j ∧ b.rtid ≠ 0 ∧ b.rtid ≠ j)
  | .init _, _ => False

/-- an object a passed check has looked at -/
def Seen (w : W) (x : Thread) : Check → Prop
  | .own o | .lazy o => ∃ p j, o = some p ∧ x.rt = some j ∧ Owned w j p
  | .init _ => False
  | _ => True

theorem check_cases {w w' : W} {t : Nat} {c : Call} {q : Check} {l : List Check} (h : check w t c q l = some w') :
    (∃ k, w' = refuse w t c q k ∧ Why w (w.th t) q k) ∨
    (w' = w.setT t { w.th t with pc := .chk c l } ∧ Done (w.th t) q ∧ Seen w (w.th t) q) ∨
    (∃ o, q = .lazy (some o) ∧ w' = w.setT t { w.th t with pc := .chk c (.init (some o) :: l) } ∧ (w.th t).rt.isSome = true ∧ Zero w o) ∨
    (∃ o k b, q = .init (some o) ∧ (w.th t).rt = some k ∧ w.obj o = some b ∧ w' = (w.setO o { rtid := k }).setT t { w.th t with pc := .chk c l }) := by
  unfold check at h
  dsimp only at h
  cases q with
  | arg ok => cases ok <;> simp_all [Why, Done, Seen]
  | gen ok => cases ok <;> simp_all [Why, Done, Seen]
  | rt => cases hr : (w.th t).rt <;> simp_all [Why, Done, Seen]
  | main => cases hr : (w.th t).rt <;> cases hm : (w.th t).main <;> simp_all [Why, Done, Seen]
  | own o =>
    cases o with
    | none => simp_all [Why, Done, Seen]
    | some o =>
      cases ho : w.obj o with
      | none => simp [ho] at h
      | some b =>
        cases hr : (w.th t).rt with
        | none => left; simp_all [Why]
        | some k =>
          simp only [ho, hr] at h
          split at h
          · next e => right; left; simp_all [Done, Seen, Owned]
          · next e => left; simp_all [Why]
  | lazy o =>
    cases o with
    | none => simp_all [Why, Done, Seen]
    | some o =>
      cases ho : w.obj o with
      | none => simp [ho] at h
      | some b =>
        cases hr : (w.th t).rt with
        | none => left; simp_all [Why]
        | some k =>
          simp only [ho, hr] at h
          split at h
          · next e => right; right; left; simp_all [Zero, Owned]
          · split at h
            · next e => right; left; simp_all [Done, Seen, Owned]
            · next e => left; simp_all [Why]
  | init o =>
    cases o with
    | none => simp_all
    | some o =>
      cases ho : w.obj o with
      | none => simp [ho] at h
      | some b =>
        cases hr : (w.th t).rt with
        | none => simp [ho, hr] at h
        | some k => right; right; right; simp_all

/-- what a step is -/
inductive Kind (w w' : W) : Act → Prop
  | zero {o} : w.obj o = none → w' = w.setO o { rtid := 0 } → Kind w w' (.zero o)
  | call {t c} : (w.th t).pc = .idle → w' = w.setT t { w.th t with pc := .chk c (checks c) } → Kind w w' (.call t c)
  | enter {t c} : (w.th t).pc = .chk c [] → w' = enter w t c → Kind w w' (.go t)
  | refuse {t c q l k} : (w.th t).pc = .chk c (q :: l) → w' = refuse w t c q k → Why w (w.th t) q k → Kind w w' (.go t)
  | pass {t c q l} : (w.th t).pc = .chk c (q :: l) → w' = w.setT t { w.th t with pc := .chk c l } → Done (w.th t) q → Seen w (w.th t) q → Kind w w' (.go t)
  | lazy {t c l o} : (w.th t).pc = .chk c (.lazy (some o) :: l) → w' = w.setT t { w.th t with pc := .chk c (.init (some o) :: l) } → (w.th t).rt.isSome = true → Zero w o → Kind w w' (.go t)
  | init {t c l o k b} : (w.th t).pc = .chk c (.init (some o) :: l) → (w.th t).rt = some k → w.obj o = some b → w' = (w.setO o { rtid := k }).setT t { w.th t with pc := .chk c l } → Kind w w' (.go t)
  | touch {t i o c r k b} : (w.th t).pc = .idle → (c, r) ∈ (w.th t).ops → (w.th t).rt = some k → w.obj o = some b → Uses c o → w' = w.setO o { b with touched := k :: b.touched } → Kind w w' (.touch t i o)
  | drop {t i} : (w.th t).pc = .idle → w' = w.setT t { w.th t with ops := (w.th t).ops.eraseIdx i } → Kind w w' (.drop t i)
  | ret {t i r e part c root made} (hpc : (w.th t).pc = .idle) (hop : (w.th t).ops[i]? = some (c, root)) (hroot : root = true → (w.th t).ops = [(c, root)])
      (w1 : W) (hw1 : w1 = w ∨ ∃ o k, made = some o ∧ w.obj o = none ∧ (w.th t).rt = some k ∧ w1 = w.setO o { rtid := k })
      (hw : w' = w1.setT t { w.th t with ops := (w.th t).ops.eraseIdx i, lasterr := report c (w.th t).lasterr r e part, rt := if root then none else (w.th t).rt, last := some (c, r) }) : Kind w w' (.ret t i r e part made)

theorem step_kind {w w' : W} {a : Act} (h : step w a = some w') : Kind w w' a := by
  unfold step at h
  cases a with
  | zero o =>
    dsimp only at h
    split at h
    · next ho => cases h; exact .zero ho rfl
    · cases h
  | call t c =>
    dsimp only at h
    split at h
    · next hp => cases h; exact .call hp rfl
    · cases h
  | go t =>
    dsimp only at h
    split at h
    · cases h
    · next hp => cases h; exact .enter hp rfl
    · next c q l hp =>
      rcases check_cases h with ⟨k, e, y⟩ | ⟨e, d, s⟩ | ⟨o, rfl, e, r, z⟩ | ⟨o, k, b, rfl, r, hb, e⟩
      · exact .refuse hp e y
      · exact .pass hp e d s
      · exact .lazy hp e r z
      · exact .init hp r hb e
  | touch t i o =>
    dsimp only at h
    split at h
    · next hp hop hr ho =>
      split at h
      · next hu => cases h; exact .touch hp (List.mem_of_getElem? hop) hr ho hu rfl
      · cases h
    · cases h
  | drop t i =>
    dsimp only at h
    split at h
    · next hp _ => cases h; exact .drop hp rfl
    · cases h
  | ret t i r e part made =>
    dsimp only at h
    split at h
    · next c root hp hop =>
      split at h
      · cases h
      · next hn =>
        have hroot : root = true → (w.th t).ops = [(c, root)] := by
          intro hr
          have hl : (w.th t).ops.length = 1 := by simp [hr] at hn; exact hn
          match hx : (w.th t).ops, hl with
          | [y], _ =>
            rw [hx] at hop
            cases i with
            | zero => simp at hop; rw [hop]
            | succ i => simp at hop
        split at h
        · cases h; exact .ret hp hop hroot w (.inl rfl) rfl
        · next o =>
          split at h
          · next ho hr => cases h; exact .ret hp hop hroot _ (.inr ⟨o, _, rfl, ho, hr, rfl⟩) rfl
          · next ho hr => cases h; exact .ret hp hop hroot _ (.inr ⟨o, _, rfl, ho, hr, rfl⟩) rfl
          · next ho hr => cases h; exact .ret hp hop hroot _ (.inr ⟨o, _, rfl, ho, hr, rfl⟩) rfl
          · cases h
    · cases h

/-- the thread a step belongs to -/
def actor : Act → Option Nat
  | .zero _ => none
  | .call t _ | .go t | .touch t _ _ | .drop t _ | .ret t .. => some t

theorem refuse_ne (w : W) {t u : Nat} (c : Call) (q : Check) (k : Int) (h : u ≠ t) : (refuse w t c q k).th u = w.th u := setT_ne _ _ h
@[simp] theorem refuse_obj (w : W) (t : Nat) (c : Call) (q : Check) (k : Int) : (refuse w t c q k).obj = w.obj := rfl
@[simp] theorem refuse_next (w : W) (t : Nat) (c : Call) (q : Check) (k : Int) : (refuse w t c q k).next = w.next := rfl
@[simp] theorem enter_obj (w : W) (t : Nat) (c : Call) : (enter w t c).obj = w.obj := by unfold enter; split <;> rfl
theorem enter_ne (w : W) {t u : Nat} (c : Call) (h : u ≠ t) : (enter w t c).th u = w.th u := by
  unfold enter; split
  · exact setT_ne w _ h
  · exact setT_ne w _ h
theorem enter_pc (w : W) (t : Nat) (c : Call) : ((enter w t c).th t).pc = .idle := by
  unfold enter; split
  · simp [W.setT]
  · simp
theorem enter_ops (w : W) (t : Nat) (c : Call) : ∃ root, ((enter w t c).th t).ops = (c, root) :: (w.th t).ops := by
  unfold enter; split
  · exact ⟨true, by simp [W.setT]⟩
  · exact ⟨false, by simp⟩

theorem step_other {w w' : W} {a : Act} (h : step w a = some w') {u : Nat} (hu : actor a ≠ some u) : w'.th u = w.th u := by
  cases step_kind h with
  | zero ho e => subst e; rfl
  | call hp e => subst e; exact setT_ne _ _ (fun x => hu (by simp [actor, x]))
  | enter hp e => subst e; exact enter_ne _ _ (fun x => hu (by simp [actor, x]))
  | refuse hp e y => subst e; exact refuse_ne _ _ _ _ (fun x => hu (by simp [actor, x]))
  | pass hp e => subst e; exact setT_ne _ _ (fun x => hu (by simp [actor, x]))
  | lazy hp e => subst e; exact setT_ne _ _ (fun x => hu (by simp [actor, x]))
  | init hp r hb e => subst e; exact setT_ne _ _ (fun x => hu (by simp [actor, x]))
  | touch hp hop r hb hU e => subst e; rfl
  | drop hp e => subst e; exact setT_ne _ _ (fun x => hu (by simp [actor, x]))
  | ret hp hop hroot w1 hw1 e =>
    subst e
    rw [setT_ne _ _ (fun x => hu (by simp [actor, x]))]
    rcases hw1 with rfl | ⟨o, k, _, _, _, rfl⟩ <;> rfl

/-- where a thread is at the head of a call -/
structure At (w : W) (t : Nat) (c : Call) (l pre suf : List Check) : Prop where
  eq : checks c = pre ++ suf
  done : ∀ q ∈ pre, Done (w.th t) q
  here : l = suf ∨ ∃ o, l = .init (some o) :: suf ∧ .lazy (some o) ∈ pre

theorem Done.congr {x y : Thread} (hr : y.rt = x.rt) (hm : y.main = x.main) : ∀ {q}, Done x q → Done y q := by
  intro q h
  cases q <;> simp_all [Done]

theorem reach_at {ok : W → Act → Prop} {w : W} (r : Reach ok w) : ∀ {t c l}, (w.th t).pc = .chk c l → ∃ pre suf, At w t c l pre suf := by
  induction r with
  | init => intro t c l h; simp [init] at h
  | @step w w' a r hok hs ih =>
    intro t c l h
    by_cases hu : actor a = some t
    · cases step_kind hs with
      | zero ho e => simp [actor] at hu
      | call hp e =>
        simp only [actor, Option.some.injEq] at hu; subst hu; subst e
        simp at h
        obtain ⟨rfl, rfl⟩ := h
        exact ⟨[], checks _, rfl, by simp, .inl rfl⟩
      | enter hp e =>
        simp only [actor, Option.some.injEq] at hu; subst hu; subst e
        rw [enter_pc] at h; cases h
      | refuse hp e y =>
        simp only [actor, Option.some.injEq] at hu; subst hu; subst e
        simp [refuse] at h
      | @pass t' c' q' l' hp e d s =>
        simp only [actor, Option.some.injEq] at hu; subst hu; subst e
        simp at h
        obtain ⟨rfl, rfl⟩ := h
        obtain ⟨pre, suf, H⟩ := ih hp
        have hd : ∀ q ∈ pre, Done ((w.setT t' { w.th t' with pc := .chk c' l' }).th t') q := fun q hq => (H.done q hq).congr (by simp) (by simp)
        rcases H.here with rfl | ⟨o, e, m⟩
        · refine ⟨pre ++ [_], _, by simpa using H.eq, ?_, .inl rfl⟩
          intro q hq
          rcases List.mem_append.mp hq with hq | hq
          · exact hd q hq
          · simp at hq; subst hq; exact d.congr (by simp) (by simp)
        · simp at e
          obtain ⟨rfl, rfl⟩ := e
          exact ⟨pre, _, H.eq, hd, .inl rfl⟩
      | @lazy t' c' l' o hp e hr z =>
        simp only [actor, Option.some.injEq] at hu; subst hu; subst e
        simp at h
        obtain ⟨rfl, rfl⟩ := h
        obtain ⟨pre, suf, H⟩ := ih hp
        have hd : ∀ q ∈ pre, Done ((w.setT t' { w.th t' with pc := .chk c' (.init (some o) :: l') }).th t') q := fun q hq => (H.done q hq).congr (by simp) (by simp)
        rcases H.here with rfl | ⟨o, e, m⟩
        · refine ⟨pre ++ [_], _, by simpa using H.eq, ?_, .inr ⟨o, rfl, by simp⟩⟩
          intro q hq
          rcases List.mem_append.mp hq with hq | hq
          · exact hd q hq
          · simp at hq; subst hq; simp [Done, hr]
        · simp at e
      | @init t' c' l' o' k' b' hp hr hb e =>
        simp only [actor, Option.some.injEq] at hu; subst hu; subst e
        simp at h
        obtain ⟨rfl, rfl⟩ := h
        obtain ⟨pre, suf, H⟩ := ih hp
        have hd : ∀ q ∈ pre, Done (((w.setO o' { rtid := k' }).setT t' { w.th t' with pc := .chk c' l' }).th t') q := fun q hq => (H.done q hq).congr (by simp) (by simp)
        rcases H.here with rfl | ⟨o, e, m⟩
        · refine ⟨pre ++ [_], _, by simpa using H.eq, ?_, .inl rfl⟩
          intro q hq
          rcases List.mem_append.mp hq with hq | hq
          · exact hd q hq
          · simp at hq; subst hq; simp [Done, hr]
        · simp at e
          obtain ⟨rfl, rfl⟩ := e
          exact ⟨pre, _, H.eq, hd, .inl rfl⟩
      | touch hp hop r hb hU e =>
        simp only [actor, Option.some.injEq] at hu; subst hu; subst e
        simp [hp] at h
      | drop hp e =>
        simp only [actor, Option.some.injEq] at hu; subst hu; subst e
        simp [hp] at h
      | ret hp hop hroot w1 hw1 e =>
        simp only [actor, Option.some.injEq] at hu; subst hu; subst e
        simp [hp] at h
    · rw [step_other hs hu] at h
      obtain ⟨pre, suf, H⟩ := ih h
      exact ⟨pre, suf, H.eq, by rw [step_other hs hu]; exact H.done, H.here⟩

/-- two runtimes never have the same identifier, and none has 0 -/
structure Ids (w : W) : Prop where
  pos : 1 ≤ w.next
  lt : ∀ t k, (w.th t).rt = some k → 1 ≤ k ∧ k < w.next
  inj : ∀ t u k, (w.th t).rt = some k → (w.th u).rt = some k → t = u

theorem Ids.mono {w w' : W} (H : Ids w) (hn : w'.next = w.next) (hr : ∀ t k, (w'.th t).rt = some k → (w.th t).rt = some k) : Ids w' := by
  refine ⟨by rw [hn]; exact H.pos, ?_, ?_⟩
  · intro t k h; rw [hn]; exact H.lt t k (hr t k h)
  · intro t u k h1 h2; exact H.inj t u k (hr _ _ h1) (hr _ _ h2)

theorem step_ids {w w' : W} {a : Act} (hs : step w a = some w') (H : Ids w) : Ids w' := by
  have key : ∀ {t : Nat} {x : Thread} {w1 : W}, w1.next = w.next → w1.th = w.th → (∀ k, x.rt = some k → (w.th t).rt = some k) → Ids (w1.setT t x) := by
    intro t x w1 hn hth hx
    refine H.mono (by simp [hn]) ?_
    intro u k h
    by_cases hu : u = t
    · subst hu; simp at h; exact hx k h
    · rw [setT_ne _ _ hu, hth] at h; exact h
  cases step_kind hs with
  | zero ho e => subst e; exact H.mono rfl (fun _ _ h => h)
  | call hp e => subst e; exact key rfl rfl (fun _ h => h)
  | @enter t c hp e =>
    subst e
    unfold enter
    split
    · next a b hr =>
      refine ⟨by simp, ?_, ?_⟩
      · intro u k h
        by_cases hu : u = t
        · subst hu; simp [W.setT] at h; subst h; exact ⟨H.pos, by simp⟩
        · rw [show ({ w.setT t _ with next := w.next + 1 } : W).th u = w.th u from setT_ne w _ hu] at h
          have := H.lt u k h
          exact ⟨this.1, by simp; omega⟩
      · intro u v k h1 h2
        by_cases hu : u = t <;> by_cases hv : v = t
        · rw [hu, hv]
        · subst hu; simp [W.setT, hv] at h1 h2; have := H.lt v k h2; omega
        · subst hv; simp [W.setT, hu] at h1 h2; have := H.lt u k h1; omega
        · simp [W.setT, hu, hv] at h1 h2; exact H.inj u v k h1 h2
    · exact key rfl rfl (fun _ h => h)
  | refuse hp e y => subst e; exact key rfl rfl (fun _ h => h)
  | pass hp e => subst e; exact key rfl rfl (fun _ h => h)
  | lazy hp e => subst e; exact key rfl rfl (fun _ h => h)
  | init hp r hb e => subst e; exact key rfl rfl (fun _ h => h)
  | touch hp hop r hb hU e => subst e; exact H.mono rfl (fun _ _ h => h)
  | drop hp e => subst e; exact key rfl rfl (fun _ h => h)
  | ret hp hop hroot w1 hw1 e =>
    subst e
    have : ∀ (root : Bool) (x : Option Nat) (k : Nat), (if root then none else x) = some k → x = some k := by intro root x k h; cases root <;> simp_all
    rcases hw1 with rfl | ⟨o, k, _, _, _, rfl⟩
    · exact key rfl rfl (this _ _)
    · exact key rfl rfl (this _ _)

theorem reach_ids {ok : W → Act → Prop} {w : W} (r : Reach ok w) : Ids w := by
  induction r with
  | init => exact ⟨by simp [init], by simp [init], by simp [init]⟩
  | step r hok hs ih => exact step_ids hs ih

/-! ## The lists of checks -/

theorem legal_arg {c : Call} {ok : Bool} (hl : Legal c) (h : Check.arg ok ∈ checks c) : ok = true := by
  cases c with
  | dial n a => obtain ⟨h1, h2⟩ := hl; cases a <;> rcases h1 with h1 | h1 | h1 | h1 <;> subst h1 <;> simp_all [checks, knownNet]
  | serve n a => obtain ⟨h1, h2⟩ := hl; cases a <;> rcases h1 with h1 | h1 | h1 | h1 <;> subst h1 <;> simp_all [checks, knownNet]
  | muInit m => cases m <;> simp_all [checks, Legal]
  | wgInit m => cases m <;> simp_all [checks, Legal]
  | cvInit m => cases m <;> simp_all [checks, Legal]
  | genStart _ _ _ _ => rcases hl with ⟨h1, h2, h3, h4⟩; simp_all [checks, INT_MAX]
  | _ => simp_all [checks, Legal, INT_MAX]

theorem own_obj {c : Call} {o : Option Nat} (h : Check.own o ∈ checks c) : o ∈ objects c ∧ Handle c ∧ ¬ Free c ∧ (o = none → ¬ Legal c ∨ c = .genYield none) := by
  cases c with
  | select n cs =>
    have h' : o ∈ cs := by simpa [checks] using h
    exact ⟨h', trivial, by simp [Free], fun e => .inl (fun hl => hl.2 (e ▸ h'))⟩
  | _ => simp_all [checks, objects, Handle, Legal, Free]

theorem lazy_obj {c : Call} {o : Option Nat} (h : Check.lazy o ∈ checks c) : o ∈ objects c ∧ ¬ Free c ∧ ¬ Handle c ∧ ¬ IsInit c ∧ (o = none → ¬ Legal c) := by
  cases c with
  | cvWait a b => rcases (by simpa [checks] using h : o = a ∨ o = b) with rfl | rfl <;> simp_all [checks, objects, Handle, Legal, Free, IsInit]
  | _ => simp_all [checks, objects, Handle, Legal, Free, IsInit]

theorem init_obj {c : Call} {o : Option Nat} (h : Check.init o ∈ checks c) : o ∈ objects c ∧ IsInit c ∧ ¬ Handle c := by
  cases c <;> simp_all [checks, objects, Handle, IsInit]

theorem rt_free {c : Call} (h : Check.rt ∈ checks c) : ¬ Free c := by
  cases c <;> simp_all [checks, Free]

theorem main_only {c : Call} (h : Check.main ∈ checks c) : MainOnly c ∧ ¬ Free c := by
  cases c <;> simp_all [checks, MainOnly, Free]

theorem gen_only {c : Call} (h : Check.gen false ∈ checks c) : c = .genYield none := by
  cases c with
  | genYield g => cases g <;> simp_all [checks]
  | _ => simp_all [checks]

/-- every object of a call is looked at, every call outside `Free` looks at the runtime -/
theorem obj_checked {c : Call} {o : Option Nat} (h : o ∈ objects c) : Check.own o ∈ checks c ∨ Check.lazy o ∈ checks c ∨ Check.init o ∈ checks c := by
  cases c <;> simp_all [checks, objects]

/-- what passing all the checks means -/
theorem checks_done {c : Call} {x : Thread} (h : ∀ q ∈ checks c, Done x q) :
    Legal c ∧ (¬ Free c → x.rt.isSome = true) ∧ (MainOnly c → x.main = true) ∧ c ≠ .genYield none := by
  cases c with
  | dial n a => cases a <;> simp_all [checks, Done, Legal, Free, MainOnly, knownNet, or_assoc]
  | serve n a => cases a <;> simp_all [checks, Done, Legal, Free, MainOnly, knownNet, or_assoc]
  | chan op o => cases o <;> simp_all [checks, Done, Legal, Free, MainOnly]
  | muInit o => cases o <;> simp_all [checks, Done, Legal, Free, MainOnly]
  | mu op o => cases o <;> simp_all [checks, Done, Legal, Free, MainOnly]
  | wgInit o => cases o <;> simp_all [checks, Done, Legal, Free, MainOnly]
  | wg op o => cases o <;> simp_all [checks, Done, Legal, Free, MainOnly]
  | cvInit o => cases o <;> simp_all [checks, Done, Legal, Free, MainOnly]
  | cvSignal o => cases o <;> simp_all [checks, Done, Legal, Free, MainOnly]
  | cvBroadcast o => cases o <;> simp_all [checks, Done, Legal, Free, MainOnly]
  | cvWait o p => cases o <;> cases p <;> simp_all [checks, Done, Legal, Free, MainOnly]
  | stream op o => cases o <;> simp_all [checks, Done, Legal, Free, MainOnly]
  | genYield o => cases o <;> simp_all [checks, Done, Legal, Free, MainOnly]
  | select n cs =>
    simp only [checks, List.mem_cons, List.mem_map, forall_eq_or_imp] at h
    obtain ⟨h1, h2, h3⟩ := h
    simp only [Done, decide_eq_true_eq] at h1 h2
    refine ⟨⟨h1, ?_⟩, fun _ => h2, by simp [MainOnly], by simp⟩
    intro hn
    have := h3 (.own none) ⟨none, hn, rfl⟩
    simp [Done] at this
  | chanMake out size cap =>
    simp only [checks, Done, List.mem_cons, List.not_mem_nil, or_false, forall_eq_or_imp, forall_eq, Bool.and_eq_true] at h
    exact ⟨⟨h.1.1.1, of_decide_eq_true h.1.1.2, of_decide_eq_true h.1.2⟩, fun _ => h.2, by simp [MainOnly], by simp⟩
  | genStart out size fn argc =>
    simp only [checks, Done, List.mem_cons, List.not_mem_nil, or_false, forall_eq_or_imp, forall_eq, Bool.and_eq_true] at h
    exact ⟨⟨h.1.1, of_decide_eq_true h.1.2, h.2.2.1, of_decide_eq_true h.2.2.2⟩, fun _ => h.2.1, by simp [MainOnly], by simp⟩
  | _ => simp_all [checks, Done, Legal, Free, MainOnly]

/-- what a refused check means -/
theorem checks_why {w : W} {c : Call} {x : Thread} {pre suf : List Check} {q : Check} {k : Int} (he : checks c = pre ++ q :: suf) (hd : ∀ p ∈ pre, Done x p) (hy : Why w x q k) :
    (k = INVAL ∧ ¬ Legal c) ∨ (k = PERM ∧ ¬ Free c ∧ x.rt = none) ∨ (k = PERM ∧ MainOnly c ∧ x.main = false) ∨
    (k = PERM ∧ ∃ j o, x.rt = some j ∧ Uses c o ∧ (Foreign w j o ∨ (Zero w o ∧ Handle c))) ∨
    (k = NOTGENERATOR ∧ c = .genYield none) := by
  have hm : q ∈ checks c := by rw [he]; simp
  cases q with
  | arg ok =>
    obtain ⟨rfl, rfl⟩ := hy
    exact .inl ⟨rfl, fun hl => by cases legal_arg hl hm⟩
  | gen ok =>
    obtain ⟨rfl, rfl⟩ := hy
    exact .inr (.inr (.inr (.inr ⟨rfl, gen_only hm⟩)))
  | rt => exact .inr (.inl ⟨hy.2, rt_free hm, hy.1⟩)
  | main =>
    obtain ⟨hy, rfl⟩ := hy
    rcases hy with hy | hy
    · exact .inr (.inl ⟨rfl, (main_only hm).2, hy⟩)
    · exact .inr (.inr (.inl ⟨rfl, (main_only hm).1, hy⟩))
  | init o => exact hy.elim
  | own o =>
    obtain ⟨h1, h2, h3, h4⟩ := own_obj hm
    cases o with
    | none =>
      cases hy
      rcases h4 rfl with h4 | rfl
      · exact .inl ⟨rfl, h4⟩
      · exfalso
        match pre, he with
        | [], he => simp [checks] at he
        | [_], he => simp [checks] at he
        | _ :: _ :: _, he =>
          simp [checks] at he
          have := hd (.gen false) (by simp [he.2.1])
          simp [Done] at this
    | some o =>
      obtain ⟨rfl, b, hb, hr | ⟨j, hr, hne⟩⟩ := hy
      · exact .inr (.inl ⟨rfl, h3, hr⟩)
      · refine .inr (.inr (.inr (.inl ⟨rfl, j, o, hr, h1, ?_⟩)))
        by_cases hz : b.rtid = 0
        · exact .inr ⟨⟨b, hb, hz⟩, h2⟩
        · exact .inl ⟨b, hb, hz, hne⟩
  | lazy o =>
    obtain ⟨h1, h2, h3, h4, h5⟩ := lazy_obj hm
    cases o with
    | none => cases hy; exact .inl ⟨rfl, h5 rfl⟩
    | some o =>
      obtain ⟨rfl, b, hb, hr | ⟨j, hr, hz, hne⟩⟩ := hy
      · exact .inr (.inl ⟨rfl, h2, hr⟩)
      · exact .inr (.inr (.inr (.inl ⟨rfl, j, o, hr, h1, .inl ⟨b, hb, hz, hne⟩⟩)))

end Neco.Obj
