import Verif.Proof.Run8

/-! # The life of a runtime: executions, enough memory, installed handlers -/

namespace Neco.Run

theorem Steps.reach {p : W → Act → Prop} {w w' : W} {l : List Act} (s : Steps p w l w') (r : Reach p w) : Reach p w' := by
  induction s with
  | nil => exact r
  | cons hp h _ ih => exact ih (r.step hp h)

theorem Reach.any {p : W → Act → Prop} {w : W} (r : Reach p w) : Reach Any w := by
  induction r with
  | init f h n hh => exact .init f h n hh
  | step _ _ h ih => exact ih.step trivial h

theorem steps_original {w w' : W} {l : List Act} {n : Nat} (r : Reach Any w) (s : Steps Any w l w') (h : ∀ d, Act.sigaction n d ∉ l) :
    original w' n = original w n := by
  induction s with
  | nil => rfl
  | @cons w w1 w' a q hp hs s ih =>
    rw [ih (r.step trivial hs) (fun d hd => h d (by simp [hd]))]
    exact step_original (reach_inv r) (reach_invS r) hs (fun d e => h d (by simp [e]))

theorem original_out {w : W} (r : Reach Any w) (h : (w.th 0).pc = .out) (n : Nat) : original w n = w.handler n := by
  unfold original
  rw [((reach_inv r).th 0).out.mp h]

theorem reach_original {w : W} (r : Reach Any w) (n : Nat) : original w n ≠ .neco := by
  induction r with
  | init f h nt hh => exact hh n
  | @step w w' r a _ h ih =>
    by_cases ha : ∃ d, a = .sigaction n d
    · obtain ⟨d, e⟩ := ha
      subst e
      simp only [step] at h
      split at h
      · cases h
      · rename_i hd
        cases h
        unfold original at ih ⊢
        dsimp only
        split
        · simp only [if_true]; exact fun e => hd (.inr e)
        · rename_i r hr
          rw [hr] at ih
          dsimp only at ih
          split
          · rename_i hs
            rw [if_pos hs] at ih; exact ih
          · simp only [if_true]; exact fun e => hd (.inr e)
    · rw [step_original (reach_inv r) (reach_invS r) h (fun d e => ha ⟨d, e⟩)]
      exact ih

/-! ## Enough memory -/

structure InvM (w : W) (t : Nat) : Prop where
  post : afterF (w.th t).pc = true → (w.th t).ret = OK
  past : ∀ r, Ev.ret t r ∈ w.log → r = OK

theorem InvM.congr {w w' : W} {t : Nat} (s : InvM w t) (h1 : (w'.th t).pc = (w.th t).pc) (h2 : (w'.th t).ret = (w.th t).ret)
    (h3 : ∀ r, Ev.ret t r ∈ w'.log → Ev.ret t r ∈ w.log) : InvM w' t :=
  ⟨by rw [h1, h2]; exact s.post, fun r hr => s.past r (h3 r hr)⟩

theorem step_invM {w w' : W} {a : Act} (i : Inv w) (s : ∀ t, InvM w t) (hp : Plenty w a) (h : step w a = some w') : ∀ t, InvM w' t := by
  intro u
  have su := s u
  cases step_cases i h with
  | tau t ok r hr k tk =>
    have no : ¬ ∃ j, ok j = false := fun ⟨j, hj⟩ => by rw [hp j] at hj; cases hj
    by_cases e : u = t
    · subst e
      obtain ⟨s1, s2⟩ := su
      cases tk <;> constructor <;> simp_all [afterF, afterZ]
      all_goals grind
    · refine su.congr (by rw [k.other u e]) (by rw [k.other u e]) (fun r hr => ?_)
      cases tk <;> simp_all
  | callNo t hp' ht hh hl hi hs => cases hp
  | call t b hp ht hh hl hi hs =>
    have ht := ht u
    by_cases e : u = t
    · subst e
      rw [if_pos rfl] at ht
      refine ⟨?_, fun r hr => su.past r (by simpa [hl] using hr)⟩
      rw [ht]; simp [afterF, afterZ]
    · rw [if_neg e] at ht; exact su.congr (by rw [ht]) (by rw [ht]) (by simp [hl])
  | rt a t r r' hr h1 h2 h3 ht hh hl hi hs =>
    have ht := ht u
    by_cases e : u = t
    · subst e; rw [if_pos rfl] at ht; exact su.congr (by rw [ht]) (by rw [ht]) (by simp [hl])
    · rw [if_neg e] at ht; exact su.congr (by rw [ht]) (by rw [ht]) (by simp [hl])
  | finish t r hr hp ht hh hl hi hs =>
    have ht := ht u
    by_cases e : u = t
    · subst e
      rw [if_pos rfl] at ht
      refine ⟨?_, fun r hr => su.past r (by simpa [hl] using hr)⟩
      rw [ht]; simp [afterF, afterZ]
    · rw [if_neg e] at ht; exact su.congr (by rw [ht]) (by rw [ht]) (by simp [hl])
  | signal t n hw =>
    have e := (deliver_same w t n).2.2.2.2.2.1
    rw [← hw] at e
    rcases deliver_th w t n u with g | ⟨r, q, hr, g⟩ <;> rw [← hw] at g <;> exact su.congr (by rw [g]) (by rw [g]) (by simp [e])
  | sigaction n d hd ht hh hl hi hs => exact su.congr (by rw [ht]) (by rw [ht]) (by simp [hl])
  | alt t b ht hb hh hl hi hs =>
    have ht := ht u
    by_cases e : u = t
    · subst e; rw [if_pos rfl] at ht; exact su.congr (by rw [ht]) (by rw [ht]) (by simp [hl])
    · rw [if_neg e] at ht; exact su.congr (by rw [ht]) (by rw [ht]) (by simp [hl])
  | none a ht hh hl hi hs => exact su.congr (by rw [ht]) (by rw [ht]) (by simp [hl])

theorem reach_invM {w : W} (r : Reach Plenty w) : ∀ t, InvM w t := by
  induction r with
  | init => intro t; constructor <;> simp [init, afterF, afterZ]
  | step r hp h ih => exact step_invM (reach_inv r) ih hp h

/-! ## Installed handlers -/

/-- the handler of neco is installed for every signal whose disposition is saved -/
def InvH (w : W) : Prop := ∀ r n, (w.th 0).rt = some r → saved (w.th 0).pc r n = true → w.handler n = .neco

theorem step_invH {w w' : W} {a : Act} (i : Inv w) (si : ∀ t, InvS w t) (s : InvH w) (hp : Hands w a) (h : step w a = some w') : InvH w' := by
  intro r1 n hr1 hs1
  cases step_cases i h with
  | tau t ok r hr k tk =>
    by_cases e : t = 0
    · subst e
      have hm := (i.th 0).main r hr
      have s' := s r n hr
      have s2 := (si 0).stk rfl
      have s3 := (si 0).un
      have hsg := (i.th 0).sg r hr
      cases tk with
      | set k m hp hk ht hh hl hf =>
        rw [ht] at hr1 hs1
        cases hr1
        simp only [saved, decide_eq_true_eq, take_step hk] at hs1
        rw [hp] at s'
        rw [hh]
        dsimp only
        split
        · rfl
        · rename_i e
          exact s' (by simpa [saved] using hs1.resolve_left e)
      | unset k m hp hk ht hh hl hf =>
        rw [ht] at hr1 hs1
        dsimp only at hr1
        rw [hr] at hr1
        cases hr1
        simp only [saved, decide_eq_true_eq] at hs1
        have e : n ≠ m := fun e => drop_new hk (e ▸ hs1)
        rw [hp] at s'
        rw [hh]
        simp only [e, if_false]
        exact s' (by simp [saved, drop_step hk, hs1])
      | setEnd k hp hk ht hh hl hf =>
        simp_all [saved, take_all hk]
      | free hp hm' hs ht hh hl hf =>
        have : r.sigstack.isSome = true := Option.isSome_iff_ne_none.mpr hs
        simp_all [saved]
      | zch hp ht hh hl hf => simp_all [saved]
      | workNo hp ho ht hh hl hf => simp_all [saved]
      | startNo hp ho ht hh hl hf => simp_all [saved]
      | fin hp ht hh hl hf =>
        rw [ht] at hr1 hs1
        cases hr1
        simp [saved] at hs1
        rw [hh]
        exact s' (by rw [hp]; simp [saved, hs1.2])
      | sigNo hp hm' ho ht hh hl hf => simp_all [saved]
      | work hp K ht hh hl hf =>
        rw [ht] at hr1 hs1
        cases hr1
        rw [hh]
        exact s' (by rw [hp]; simpa [saved] using hs1)
      | start hp b ht hh hl hf =>
        rw [ht] at hr1 hs1
        cases hr1
        rw [hh]
        exact s' (by rw [hp]; simpa [saved] using hs1)
      | sigOff hp hm' ht hh hl hf => simp_all
      | sig hp hm' b ht hh hl hf => simp_all [saved]
      | alt hp ht hh hl hf => simp_all [saved]
      | freeNo hp hs ht hh hl hf => simp_all [saved]
      | unsetEnd k hp hk ht hh hl hf => simp_all [saved]
      | dl hp ht hh hl hf => simp_all [saved]
      | wfree hp ht hh hl hf => rw [ht] at hs1; simp [saved] at hs1
      | rel hp ht hh hl hf => simp_all [saved]
    · rw [k.other 0 (Ne.symm e)] at hr1 hs1
      have := s r1 n hr1 hs1
      have s1 := (si t).only
      cases tk <;> rename_i hh _ _ <;> simp_all [mainOnly]
  | callNo t hp' ht hh hl hi hs =>
    rw [ht 0] at hr1 hs1
    rw [hh]
    split at hr1
    · rename_i e; subst e
      exact s r1 n hr1 (by simpa using hs1)
    · rename_i e
      rw [if_neg e] at hs1
      exact s r1 n hr1 hs1
  | call t b hp ht hh hl hi hs =>
    rw [ht 0] at hr1 hs1
    rw [hh]
    split at hr1
    · rename_i e; subst e
      simp [saved] at hs1
    · rename_i e
      rw [if_neg e] at hs1
      exact s r1 n hr1 hs1
  | rt a t r r' hr h1 h2 h3 ht hh hl hi hs =>
    rw [ht 0] at hr1 hs1
    rw [hh]
    split at hr1
    · rename_i e; subst e
      cases hr1
      have : saved (w.th 0).pc r1 n = saved (w.th 0).pc r n := by unfold saved; rw [h1]
      exact s r n hr (by rw [← this]; simpa using hs1)
    · rename_i e
      rw [if_neg e] at hs1
      exact s r1 n hr1 hs1
  | finish t r hr hp' ht hh hl hi hs =>
    rw [ht 0] at hr1 hs1
    rw [hh]
    split at hr1
    · rename_i e; subst e
      exact s r1 n hr1 (by rw [hp']; simpa [saved] using hs1)
    · rename_i e
      rw [if_neg e] at hs1
      exact s r1 n hr1 hs1
  | signal t m hw =>
    have e := (deliver_same w t m).2.2.2.2.1
    rw [← hw] at e
    rw [e]
    rcases deliver_th w t m 0 with g | ⟨r, q, hr, g⟩ <;> rw [← hw] at g <;> rw [g] at hr1 hs1
    · exact s r1 n hr1 hs1
    · cases hr1
      exact s r n hr (by unfold saved at hs1 ⊢; exact hs1)
  | sigaction m d hd ht hh hl hi hs =>
    rw [ht] at hr1
    have := ((i.th 0).out.mp hp)
    rw [hr1] at this; cases this
  | alt t b ht hb hh hl hi hs =>
    rw [ht 0] at hr1 hs1
    rw [hh]
    split at hr1
    · rename_i e; subst e
      exact s r1 n hr1 (by simpa using hs1)
    · rename_i e
      rw [if_neg e] at hs1
      exact s r1 n hr1 hs1
  | none a ht hh hl hi hs => rw [ht] at hr1 hs1; rw [hh]; exact s r1 n hr1 hs1

theorem reach_invH {w : W} (r : Reach Hands w) : InvH w := by
  induction r with
  | init => intro r n hr; simp [init] at hr
  | step r hp h ih => exact step_invH (reach_inv r) (reach_invS r) ih hp h

/-! ## Executions that are computed -/

def runActs (w : W) : List Act → Option W
  | [] => some w
  | a :: q => (step w a).bind (fun w1 => runActs w1 q)

theorem runActs_steps {p : W → Act → Prop} : ∀ (l : List Act) {w w' : W}, (∀ a ∈ l, ∀ w, p w a) → runActs w l = some w' → Steps p w l w'
  | [], _, _, _, h => by cases h; exact .nil _
  | a :: q, w, w', hp, h => by
    simp only [runActs] at h
    cases hs : step w a with
    | none => rw [hs] at h; cases h
    | some w1 =>
      rw [hs] at h
      exact .cons (hp a (by simp) w) hs (runActs_steps q (fun b hb => hp b (by simp [hb])) h)

/-- the same with a check before each step -/
def runIf (c : W → Act → Bool) (w : W) : List Act → Option W
  | [] => some w
  | a :: q => if c w a = true then (step w a).bind (fun w1 => runIf c w1 q) else none

theorem runIf_steps {p : W → Act → Prop} {c : W → Act → Bool} (hc : ∀ w a, c w a = true → p w a) :
    ∀ (l : List Act) {w w' : W}, runIf c w l = some w' → Steps p w l w'
  | [], _, _, h => by cases h; exact .nil _
  | a :: q, w, w', h => by
    simp only [runIf] at h
    split at h
    · rename_i e
      cases hs : step w a with
      | none => rw [hs] at h; cases h
      | some w1 =>
        rw [hs] at h
        exact .cons (hc _ _ e) hs (runIf_steps hc q h)
    · cases h

end Neco.Run
