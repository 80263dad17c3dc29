import Verif.Proof.Run4

/-! # The life of a runtime: all steps, apart from memory; results, ids, handlers -/

namespace Neco.Run

/-- what each step changes apart from memory and descriptors -/
inductive StepK (w w' : W) : Act → Prop
  | tau (t : Nat) (ok : Nat → Bool) (r : Rtm) (hr : (w.th t).rt = some r) (k : Keep w w' t) (h : TauK w w' t ok r) : StepK w w' (.tau t ok)
  | callNo (t : Nat) (hp : (w.th t).pc = .out) (ht : ∀ u, w'.th u = if u = t then { w.th t with ret := NOMEM } else w.th u)
      (hh : w'.handler = w.handler) (hl : w'.log = .ret t NOMEM :: .call t :: w.log) (hi : w'.nextId = w.nextId)
      (hs : w'.sigfault = w.sigfault) : StepK w w' (.call t false)
  | call (t : Nat) (b : Nat) (hp : (w.th t).pc = .out)
      (ht : ∀ u, w'.th u = if u = t then { w.th t with pc := .sig, rt := some { blk := b, id := w.nextId, mainthread := decide (t = 0) } } else w.th u)
      (hh : w'.handler = w.handler) (hl : w'.log = .born t w.nextId :: .call t :: w.log) (hi : w'.nextId = w.nextId + 1)
      (hs : w'.sigfault = w.sigfault) : StepK w w' (.call t true)
  | rt (a : Act) (t : Nat) (r r' : Rtm) (hr : (w.th t).rt = some r) (h1 : r'.sigstack = r.sigstack) (h2 : r'.sigold = r.sigold)
      (h3 : r'.mainthread = r.mainthread) (ht : ∀ u, w'.th u = if u = t then { w.th t with rt := some r' } else w.th u)
      (hh : w'.handler = w.handler) (hl : w'.log = w.log) (hi : w'.nextId = w.nextId) (hs : a = .signal t 0 ∨ w'.sigfault = w.sigfault) : StepK w w' a
  | finish (t : Nat) (r : Rtm) (hr : (w.th t).rt = some r) (hp : (w.th t).pc = .run)
      (ht : ∀ u, w'.th u = if u = t then { w.th t with pc := .fin } else w.th u)
      (hh : w'.handler = w.handler) (hl : w'.log = w.log) (hi : w'.nextId = w.nextId) (hs : w'.sigfault = w.sigfault) : StepK w w' (.finish t)
  | signal (t n : Nat) (hw : w' = deliver w t n) : StepK w w' (.signal t n)
  | sigaction (n : Nat) (d : Disp) (hd : d ≠ .neco) (ht : w'.th = w.th) (hh : w'.handler = fun x => if x = n then d else w.handler x)
      (hl : w'.log = w.log) (hi : w'.nextId = w.nextId) (hs : w'.sigfault = w.sigfault) : StepK w w' (.sigaction n d)
  | alt (t b : Nat) (ht : ∀ u, w'.th u = if u = t then { w.th t with alt := some b } else w.th u)
      (hb : w'.heap b = some .alt)
      (hh : w'.handler = w.handler) (hl : w'.log = w.log) (hi : w'.nextId = w.nextId) (hs : w'.sigfault = w.sigfault) : StepK w w' (.sigaltstack t)
  | none (a : Act) (ht : w'.th = w.th) (hh : w'.handler = w.handler) (hl : w'.log = w.log) (hi : w'.nextId = w.nextId)
      (hs : w'.sigfault = w.sigfault ∨ ∃ t n, a = .wsignal t n ∧ (w.handler n = .neco)) : StepK w w' a

theorem StepK.rt0 {w w' : W} {a : Act} {t : Nat} {r : Rtm} (f : Rtm → Rtm) (hi : inRun w t = some r)
    (ht : w'.th = (setRt w t f).th) (h1 : (f r).sigstack = r.sigstack) (h2 : (f r).sigold = r.sigold) (h3 : (f r).mainthread = r.mainthread)
    (hh : w'.handler = w.handler) (hl : w'.log = w.log) (hn : w'.nextId = w.nextId) (hs : w'.sigfault = w.sigfault) : StepK w w' a := by
  obtain ⟨_, hr⟩ := inRun_some hi
  refine .rt a t r (f r) hr h1 h2 h3 (fun u => ?_) hh hl hn (.inr hs)
  rw [ht]
  by_cases e : u = t
  · subst e; simp [setRt, setTh, hr]
  · simp [setRt, setTh, e]

theorem step_cases {w w' : W} {a : Act} (i : Inv w) (h : step w a = some w') : StepK w w' a := by
  cases a with
  | call t ok =>
    simp only [step] at h
    split at h
    · cases h
    rename_i hc
    have hp : (w.th t).pc = .out := by
      cases e : (w.th t).pc <;> simp_all
    cases ok with
    | false => cases h; exact .callNo t hp (fun u => by simp [note, setTh]) rfl rfl rfl rfl
    | true =>
      rw [alloc_rt_ok] at h
      cases h
      exact .call t w.next hp (fun u => by simp [note, setTh, got]) rfl rfl rfl rfl
  | tau t ok =>
    simp only [step] at h
    split at h
    · cases h
    obtain ⟨r, hr, k, tk⟩ := tau_cases i h
    exact .tau t ok r hr k tk
  | finish t =>
    simp only [step] at h
    split at h
    · cases h
    cases hi : inRun w t with
    | none => rw [hi] at h; cases h
    | some r =>
      rw [hi] at h
      dsimp only at h
      split at h
      · cases h
        obtain ⟨hp, hr⟩ := inRun_some hi
        exact .finish t r hr hp (fun u => by simp [goto, setTh]) rfl rfl rfl rfl
      · cases h
  | begin t ok =>
    simp only [step] at h
    split at h
    · cases h
    cases hi : inRun w t with
    | none => rw [hi] at h; cases h
    | some r =>
      rw [hi] at h
      dsimp only at h
      split at h
      · cases h; exact .rt0 _ hi rfl rfl rfl rfl rfl rfl rfl rfl
      · cases ok with
        | false => cases h; exact .none _ rfl rfl rfl rfl (.inl rfl)
        | true => cases h; exact .rt0 _ hi rfl rfl rfl rfl rfl rfl rfl rfl
  | endco t b =>
    simp only [step] at h
    split at h
    · cases h
    cases hi : inRun w t with
    | none => rw [hi] at h; cases h
    | some r =>
      rw [hi] at h
      dsimp only at h
      split at h
      · cases h; exact .rt0 _ hi rfl rfl rfl rfl rfl rfl rfl rfl
      · cases h
  | mkchan t ok =>
    simp only [step] at h
    split at h
    · cases h
    cases hi : inRun w t with
    | none => rw [hi] at h; cases h
    | some r =>
      rw [hi] at h
      dsimp only at h
      split at h
      · cases h; exact .rt0 _ hi rfl rfl rfl rfl rfl rfl rfl rfl
      · cases h; rw [alloc_rest]; exact .none _ rfl rfl rfl rfl (.inl rfl)
  | relchan t b ok =>
    simp only [step] at h
    split at h
    · cases h
    cases hi : inRun w t with
    | none => rw [hi] at h; cases h
    | some r =>
      rw [hi] at h
      dsimp only at h
      split at h
      · split at h
        · cases h; exact .rt0 _ hi rfl rfl rfl rfl rfl rfl rfl rfl
        · cases h; rw [free_eq]; exact .none _ rfl rfl rfl rfl (.inl rfl)
      · cases h
  | grow t ok =>
    simp only [step] at h
    split at h
    · cases h
    cases hi : inRun w t with
    | none => rw [hi] at h; cases h
    | some r =>
      rw [hi] at h
      dsimp only at h
      cases ok with
      | false => cases h; exact .none _ rfl rfl rfl rfl (.inl rfl)
      | true => cases h; rw [freeOpt_rest]; exact .rt0 _ hi rfl rfl rfl rfl rfl rfl rfl rfl
  | wait t now q =>
    simp only [step] at h
    split at h
    · cases h
    cases hi : inRun w t with
    | none => rw [hi] at h; cases h
    | some r =>
      rw [hi] at h
      dsimp only at h
      split at h
      · split at h
        · cases h; exact .none _ rfl rfl rfl rfl (.inl rfl)
        · split at h
          · cases h; exact .rt0 _ hi rfl rfl rfl rfl rfl rfl rfl rfl
          · cases h
      · cases h; exact .rt0 _ hi rfl rfl rfl rfl rfl rfl rfl rfl
  | unwait t =>
    simp only [step] at h
    split at h
    · cases h
    cases hi : inRun w t with
    | none => rw [hi] at h; cases h
    | some r =>
      rw [hi] at h
      dsimp only at h
      split at h
      · cases h
      · cases h; exact .rt0 _ hi rfl rfl rfl rfl rfl rfl rfl rfl
  | rc t now =>
    simp only [step] at h
    split at h
    · cases h
    cases hi : inRun w t with
    | none => rw [hi] at h; cases h
    | some r =>
      rw [hi] at h
      dsimp only at h
      split at h
      · cases h; rw [closeq_rest]; exact .rt0 _ hi rfl rfl rfl rfl rfl rfl rfl rfl
      · cases h; exact .none _ rfl rfl rfl rfl (.inl rfl)
  | drop t =>
    simp only [step] at h
    split at h
    · cases h
    cases hi : inRun w t with
    | none => rw [hi] at h; cases h
    | some r =>
      rw [hi] at h
      dsimp only at h
      split at h
      · cases h
      · cases h; rw [free_eq]; exact .rt0 _ hi rfl rfl rfl rfl rfl rfl rfl rfl
  | random t =>
    simp only [step] at h
    split at h
    · cases h
    cases hi : inRun w t with
    | none => rw [hi] at h; cases h
    | some r =>
      rw [hi] at h
      dsimp only at h
      split at h
      · cases h; exact .none _ rfl rfl rfl rfl (.inl rfl)
      · cases h; exact .rt0 _ hi rfl rfl rfl rfl rfl rfl rfl rfl
  | submit t b =>
    simp only [step] at h
    split at h
    · cases h
    cases hi : inRun w t with
    | none => rw [hi] at h; cases h
    | some r =>
      rw [hi] at h
      dsimp only at h
      split at h
      · cases h; exact .rt0 _ hi rfl rfl rfl rfl rfl rfl rfl rfl
      · cases h
  | done t b =>
    simp only [step] at h
    split at h
    · cases h
    cases hr : (w.th t).rt with
    | none => rw [hr] at h; cases h
    | some r =>
      rw [hr] at h
      dsimp only at h
      split at h
      · cases h
        have e : jobDone w r b = { w with fault := (jobDone w r b).fault } := by
          unfold jobDone
          rw [use_heap (use w r.blk) b, use_heap w r.blk]
        rw [e]
        refine .rt _ t r { r with jobs := r.jobs.erase b } hr rfl rfl rfl (fun u => ?_) rfl rfl rfl (.inr rfl)
        by_cases e : u = t
        · subst e; simp [setRt, setTh, hr]
        · simp [setRt, setTh, e]
      · cases h
  | watch t n =>
    simp only [step] at h
    split at h
    · cases h
    cases hi : inRun w t with
    | none => rw [hi] at h; cases h
    | some r =>
      rw [hi] at h
      dsimp only at h
      cases h; exact .rt0 _ hi rfl rfl rfl rfl rfl rfl rfl rfl
  | signal t n =>
    simp only [step] at h
    split at h
    · cases h
    cases h
    exact .signal t n rfl
  | wsignal t n =>
    simp only [step] at h
    split at h
    · cases h
    split at h
    · cases h
    · split at h
      · cases h
      · cases h
        unfold deliverWorker
        split
        · exact .none _ rfl rfl rfl rfl (.inl rfl)
        · exact .none _ rfl rfl rfl rfl (.inl rfl)
        · exact .none _ rfl rfl rfl rfl (.inl rfl)
        · rename_i hn
          exact .none _ rfl rfl rfl rfl (.inr ⟨t, n, rfl, hn⟩)
  | sigaction n d =>
    simp only [step] at h
    split at h
    · cases h
    · rename_i hc
      cases h
      exact .sigaction n d (fun e => hc (.inr e)) rfl rfl rfl rfl rfl
  | sigaltstack t =>
    simp only [step] at h
    split at h
    · cases h
    · cases h
      exact .alt t w.next (fun u => by simp [setTh, alloc]) (by simp [setTh, alloc]) rfl rfl rfl rfl
  | «open» f =>
    simp only [step] at h
    split at h
    · cases h
    split at h
    · cases h; exact .none _ rfl rfl rfl rfl (.inl rfl)
    · cases h
  | close f =>
    simp only [step] at h
    split at h
    · cases h
    split at h
    · cases h; exact .none _ rfl rfl rfl rfl (.inl rfl)
    · cases h

/-! ## Results -/

/-- what the log says about a thread fits where it is -/
structure InvL (w : W) (t : Nat) : Prop where
  before : Neco.Run.before (w.th t).pc = true → ranSince t w.log = false
  run : ((w.th t).pc = .run ∨ (w.th t).pc = .fin) → ranSince t w.log = true
  post : afterF (w.th t).pc = true → ((w.th t).ret = OK ∧ ranSince t w.log = true) ∨ ((w.th t).ret = NOMEM ∧ ranSince t w.log = false)
  past : ∀ l1 l2 r, w.log = l1 ++ .ret t r :: l2 → (r = OK ∧ ranSince t l2 = true) ∨ (r = NOMEM ∧ ranSince t l2 = false)

theorem past_cons {t : Nat} {e : Ev} {log : List Ev}
    (h : ∀ l1 l2 r, log = l1 ++ .ret t r :: l2 → (r = OK ∧ ranSince t l2 = true) ∨ (r = NOMEM ∧ ranSince t l2 = false))
    (he : ∀ r, e = .ret t r → (r = OK ∧ ranSince t log = true) ∨ (r = NOMEM ∧ ranSince t log = false)) :
    ∀ l1 l2 r, e :: log = l1 ++ .ret t r :: l2 → (r = OK ∧ ranSince t l2 = true) ∨ (r = NOMEM ∧ ranSince t l2 = false) := by
  intro l1 l2 r hl
  cases l1 with
  | nil =>
    simp only [List.nil_append, List.cons.injEq] at hl
    obtain ⟨h1, h2⟩ := hl
    subst h2
    exact he r h1
  | cons x q =>
    simp only [List.cons_append, List.cons.injEq] at hl
    exact h q l2 r hl.2

theorem InvL.congr {w w' : W} {t : Nat} (l : InvL w t) (hp : (w'.th t).pc = (w.th t).pc) (hr : (w'.th t).ret = (w.th t).ret) (hl : w'.log = w.log) : InvL w' t := by
  constructor
  · rw [hp, hl]; exact l.before
  · rw [hp, hl]; exact l.run
  · rw [hp, hl, hr]; exact l.post
  · rw [hl]; exact l.past

theorem step_invL {w w' : W} {a : Act} (i : Inv w) (l : ∀ t, InvL w t) (h : step w a = some w') : ∀ t, InvL w' t := by
  intro u
  have lu := l u
  cases step_cases i h with
  | tau t ok r hr k tk =>
    by_cases e : u = t
    · subst e
      cases tk with
      | sigOff hp hm ht hh hl hf | alt hp ht hh hl hf | setEnd k hp hk ht hh hl hf | zch hp ht hh hl hf
      | freeNo hp hs ht hh hl hf | free hp hm hs ht hh hl hf | unsetEnd k hp hk ht hh hl hf | dl hp ht hh hl hf | wfree hp ht hh hl hf =>
        obtain ⟨l1, l2, l3, l4⟩ := lu
        constructor <;> rw [ht] at * <;> rw [hl] <;> simp_all [Neco.Run.before, afterF, afterZ]
      | sig hp hm b ht hh hl hf =>
        obtain ⟨l1, l2, l3, l4⟩ := lu
        constructor <;> rw [ht] at * <;> rw [hl] <;> simp_all [Neco.Run.before, afterF, afterZ]
      | work hp K ht hh hl hf =>
        obtain ⟨l1, l2, l3, l4⟩ := lu
        constructor <;> rw [ht] at * <;> rw [hl] <;> simp_all [Neco.Run.before, afterF, afterZ]
      | set k n hp hk ht hh hl hf =>
        obtain ⟨l1, l2, l3, l4⟩ := lu
        constructor <;> rw [ht] at * <;> rw [hl] <;> simp_all [Neco.Run.before, afterF, afterZ]
      | unset k n hp hk ht hh hl hf =>
        obtain ⟨l1, l2, l3, l4⟩ := lu
        constructor <;> rw [ht] at * <;> rw [hl] <;> simp_all [Neco.Run.before, afterF, afterZ]
      | sigNo hp hm ho ht hh hl hf =>
        obtain ⟨l1, l2, l3, l4⟩ := lu
        constructor <;> rw [ht] at * <;> rw [hl] <;> simp_all [Neco.Run.before, afterF, afterZ]
      | workNo hp ho ht hh hl hf | startNo hp ho ht hh hl hf =>
        obtain ⟨l1, l2, l3, l4⟩ := lu
        constructor <;> rw [ht] at * <;> rw [hl] <;> simp_all [Neco.Run.before, afterF, afterZ]
      | start hp b ht hh hl hf =>
        obtain ⟨l1, l2, l3, l4⟩ := lu
        constructor
        · rw [ht]; simp [Neco.Run.before]
        · rw [hl]; simp [ranSince]
        · rw [ht]; simp [afterF, afterZ]
        · rw [hl]; exact past_cons l4 (by simp)
      | fin hp ht hh hl hf =>
        obtain ⟨l1, l2, l3, l4⟩ := lu
        constructor <;> rw [ht] at * <;> rw [hl] <;> simp_all [Neco.Run.before, afterF, afterZ]
      | rel hp ht hh hl hf =>
        obtain ⟨l1, l2, l3, l4⟩ := lu
        rw [hp] at l3
        constructor
        · rw [ht]; simp [Neco.Run.before]
        · rw [ht]; simp
        · rw [ht]; simp [afterF, afterZ]
        · rw [hl]
          refine past_cons l4 (fun r hr => ?_)
          injection hr with _ hr
          rw [← hr]
          exact l3 rfl
    · have ho := k.other u e
      obtain ⟨l1, l2, l3, l4⟩ := lu
      cases tk with
      | start hp b ht hh hl hf =>
        have he : ranSince u w'.log = ranSince u w.log := by rw [hl]; simp [ranSince, Ne.symm e]
        refine ⟨?_, ?_, ?_, ?_⟩
        · rw [ho, he]; exact l1
        · rw [ho, he]; exact l2
        · rw [ho, he]; exact l3
        · rw [hl]; exact past_cons l4 (by simp)
      | rel hp ht hh hl hf =>
        have he : ranSince u w'.log = ranSince u w.log := by rw [hl]; simp [ranSince]
        refine ⟨?_, ?_, ?_, ?_⟩
        · rw [ho, he]; exact l1
        · rw [ho, he]; exact l2
        · rw [ho, he]; exact l3
        · rw [hl]; exact past_cons l4 (by intro r hr; injection hr with hr _; exact absurd hr.symm e)
      | _ => exact InvL.congr ⟨l1, l2, l3, l4⟩ (by rw [ho]) (by rw [ho]) (by assumption)
  | callNo t hp ht hh hl hi hs =>
    obtain ⟨l1, l2, l3, l4⟩ := lu
    by_cases e : u = t
    · subst e
      have ht := ht u
      rw [if_pos rfl] at ht
      constructor
      · rw [ht]; simp [hp, Neco.Run.before]
      · rw [ht]; simp [hp]
      · rw [ht]; simp [hp, afterF, afterZ]
      · rw [hl]
        refine past_cons (past_cons l4 (by simp)) (fun r hr => ?_)
        injection hr with _ hr
        right
        exact ⟨hr.symm, by simp [ranSince]⟩
    · have ht := ht u
      rw [if_neg e] at ht
      have he : ranSince u w'.log = ranSince u w.log := by rw [hl]; simp [ranSince, Ne.symm e]
      refine ⟨?_, ?_, ?_, ?_⟩
      · rw [ht, he]; exact l1
      · rw [ht, he]; exact l2
      · rw [ht, he]; exact l3
      · rw [hl]; exact past_cons (past_cons l4 (by simp)) (by intro r hr; injection hr with hr _; exact absurd hr.symm e)
  | call t b hp ht hh hl hi hs =>
    obtain ⟨l1, l2, l3, l4⟩ := lu
    have ht := ht u
    by_cases e : u = t
    · subst e
      rw [if_pos rfl] at ht
      constructor
      · rw [ht, hl]; simp [ranSince]
      · rw [ht]; simp
      · rw [ht]; simp [afterF, afterZ]
      · rw [hl]; exact past_cons (past_cons l4 (by simp)) (by simp)
    · rw [if_neg e] at ht
      have he : ranSince u w'.log = ranSince u w.log := by rw [hl]; simp [ranSince, Ne.symm e]
      refine ⟨?_, ?_, ?_, ?_⟩
      · rw [ht, he]; exact l1
      · rw [ht, he]; exact l2
      · rw [ht, he]; exact l3
      · rw [hl]; exact past_cons (past_cons l4 (by simp)) (by simp)
  | rt a t r r' hr h1 h2 h3 ht hh hl hi hs =>
    have ht := ht u
    by_cases e : u = t
    · subst e; rw [if_pos rfl] at ht; exact lu.congr (by rw [ht]) (by rw [ht]) hl
    · rw [if_neg e] at ht; exact lu.congr (by rw [ht]) (by rw [ht]) hl
  | finish t r hr hp ht hh hl hi hs =>
    have ht := ht u
    by_cases e : u = t
    · subst e
      rw [if_pos rfl] at ht
      obtain ⟨l1, l2, l3, l4⟩ := lu
      constructor <;> rw [ht] at * <;> rw [hl] <;> simp_all [Neco.Run.before, afterF, afterZ]
    · rw [if_neg e] at ht; exact lu.congr (by rw [ht]) (by rw [ht]) hl
  | signal t n hw =>
    have e := (deliver_same w t n).2.2.2.2.2.1
    rw [← hw] at e
    rcases deliver_th w t n u with g | ⟨r, q, hr, g⟩ <;> rw [← hw] at g <;> exact lu.congr (by rw [g]) (by rw [g]) e
  | sigaction n d hd ht hh hl hi hs => exact lu.congr (by rw [ht]) (by rw [ht]) hl
  | alt t b ht hb hh hl hi hs =>
    have ht := ht u
    by_cases e : u = t
    · subst e; rw [if_pos rfl] at ht; exact lu.congr (by rw [ht]) (by rw [ht]) hl
    · rw [if_neg e] at ht; exact lu.congr (by rw [ht]) (by rw [ht]) hl
  | none a ht hh hl hi hs => exact lu.congr (by rw [ht]) (by rw [ht]) hl

theorem reach_invL {p : W → Act → Prop} {w : W} (r : Reach p w) : ∀ t, InvL w t := by
  induction r with
  | init => intro t; constructor <;> simp [init, before, afterF, afterZ]
  | step r _ h ih => exact step_invL (reach_inv r) ih h

/-! ## Ids -/

structure InvI (w : W) : Prop where
  nd : (ids w.log).Nodup
  bd : ∀ n ∈ ids w.log, 1 ≤ n ∧ n < w.nextId
  pos : 1 ≤ w.nextId

theorem step_invI {w w' : W} {a : Act} (i : Inv w) (l : InvI w) (h : step w a = some w') : InvI w' := by
  have same : ids w'.log = ids w.log → w'.nextId = w.nextId → InvI w' := fun e1 e2 => by
    constructor
    · rw [e1]; exact l.nd
    · rw [e1, e2]; exact l.bd
    · rw [e2]; exact l.pos
  cases step_cases i h with
  | tau t ok r hr k tk =>
    refine same ?_ k.nextId
    cases tk <;> (rename_i hl _; rw [hl]) <;> rfl
  | callNo t hp ht hh hl hi hs => exact same (by rw [hl]; rfl) hi
  | call t b hp ht hh hl hi hs =>
    have e : ids w'.log = w.nextId :: ids w.log := by rw [hl]; rfl
    constructor
    · rw [e]
      exact List.nodup_cons.mpr ⟨fun hm => by have := (l.bd _ hm).2; omega, l.nd⟩
    · intro n hn
      rw [e, List.mem_cons] at hn
      rw [hi]
      rcases hn with rfl | hn
      · exact ⟨l.pos, by omega⟩
      · have := l.bd n hn; exact ⟨this.1, by omega⟩
    · rw [hi]; omega
  | rt a t r r' hr h1 h2 h3 ht hh hl hi hs => exact same (by rw [hl]) hi
  | finish t r hr hp ht hh hl hi hs => exact same (by rw [hl]) hi
  | signal t n hw =>
    have e := deliver_same w t n
    exact same (by rw [hw, e.2.2.2.2.2.1]) (by rw [hw, e.2.2.2.2.2.2.1])
  | sigaction n d hd ht hh hl hi hs => exact same (by rw [hl]) hi
  | alt t b ht hb hh hl hi hs => exact same (by rw [hl]) hi
  | none a ht hh hl hi hs => exact same (by rw [hl]) hi

theorem reach_invI {p : W → Act → Prop} {w : W} (r : Reach p w) : InvI w := by
  induction r with
  | init => constructor <;> simp [init, ids]
  | step r _ h ih => exact step_invI (reach_inv r) ih h

end Neco.Run
