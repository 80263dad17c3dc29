import Verif.Proof.RtQueue
/-!
# The pending call of a coroutine, from its record and from the history
-/
namespace Neco.Rt
open Neco.Err

theorem pending_filter (i : Nat) (l : List Ev) : pending i (l.filter Ev.rare) = pending i l := by
  induction l with
  | nil => rfl
  | cons e l ih => cases e <;> simp [Ev.rare, pending, List.filter_cons, ih]

def callOpt (c : Call) : Option Call := if c = .none then none else some c
theorem callOpt_some {c c' : Call} : callOpt c = some c' ↔ c = c' ∧ c' ≠ .none := by
  unfold callOpt; split
  · rename_i h; subst h; simp; exact fun e => e.symm
  · rename_i h; simp; exact fun e => e ▸ h

def InvPd (s : S) : Prop := ∀ j, pending j (rl s) = callOpt (s.co j).call

theorem InvPd.step {ok} {s s' : S} {a : Act} (h : InvPd s) (r : Reach ok s) (hs : Rt.step s a = some s') : InvPd s' := by
  intro j
  have hw := reach_scoWF r
  by_cases hret : ∃ v, (s.co j).pc = .ret v ∧ a = .tau ∧ s.sco.cur = some j
  · obtain ⟨v, hp, ha, hc⟩ := hret
    subst ha
    unfold Rt.step at hs
    split at hs
    · cases hs
    simp only [hc, tauCo, hp] at hs
    cases hs
    unfold doRet; split
    · have := h j
      simpa [pending, Ev.rare, setPc, upd_co] using this
    · simp [pending, Ev.rare, callOpt, upd_co]
  obtain ⟨es, h1, h2⟩ := step_rl hs
  rw [h1]
  have other : (∀ c, a = .call c → s.sco.cur ≠ some j) → (∀ c v d, .ret j c v d ∉ es) → pending j (es ++ rl s) = pending j (rl s) := by
    intro hn hr
    cases h2 with
    | call c i hc hp _ _ _ =>
      have : i ≠ j := fun e => hn c rfl (by rw [hc, e])
      simp [pending, this]
    | start c i hc hp _ =>
      have : i ≠ j := fun e => hn c rfl (by rw [hc, e])
      simp [pending, this]
    | cpop i hc hp x q _ =>
      have : i ≠ j := fun e => hn _ rfl (by rw [hc, e])
      simp [pending, this]
    | tau i hc es h2 =>
      cases h2 <;> simp only [List.nil_append, List.cons_append, pending]
      rename_i v hp hv
      have : i ≠ j := fun e => hr _ _ _ (by subst e; exact List.mem_cons_self)
      rw [if_neg this]
    | _ => rfl
  have noret : a ≠ .tau ∨ s.sco.cur ≠ some j ∨ (∀ v, (s.co j).pc ≠ .ret v) → ∀ c v d, .ret j c v d ∉ es := by
    intro hh c v d hm
    cases h2 with
    | tau i hc es h2 =>
      cases h2 <;> simp at hm
      rename_i v hp hv
      obtain ⟨rfl, _, _, _⟩ := hm
      rcases hh with hh | hh | hh
      · exact hh rfl
      · exact hh hc
      · exact hh _ hp
    | _ => simp at hm
  rcases step_stat hw hs j with ⟨h3, h4⟩ | ⟨c, ha, hc, hp, h3⟩ | ⟨i, g, ha, hi, hj, h3⟩ | ⟨v, ha, hc, hp, h3⟩ | ⟨x, q, ha, hc, hp, hq, h3⟩ | ⟨x, y, ha, hc, hp, h3⟩
  · rw [stat_call h3]
    rw [other h4 (noret (by
        by_cases h5 : a = .tau
        · by_cases h6 : s.sco.cur = some j
          · exact .inr (.inr (fun v hv => hret ⟨v, hv, h5, h6⟩))
          · exact .inr (.inl h6)
        · exact .inl h5))]
    exact h j
  · subst ha
    have hcl : (s'.co j).call = c := by rw [stat_call h3, callStat_call]
    rw [hcl]
    cases h2 with
    | call c i hc' hp hn _ _ => rw [hc] at hc'; cases hc'; simp [pending, callOpt, hn]
    | start c i hc' hp hcc => rw [hc] at hc'; cases hc'; rcases hcc with rfl | rfl <;> simp [pending, callOpt]
    | cpop i hc' hp x q _ => rw [hc] at hc'; cases hc'; simp [pending, callOpt]
    | nil _ hn => exact absurd rfl (hn c)
  · rw [h3]
    have hn1 : (newCo s i g).call = .none := by unfold newCo; split <;> rfl
    have hn0 : (s.co j).call = .none := by
      have := (reach_invN r (step_nofault hs) j).ft
      have hu := (reach_invF r).fresh j (by omega)
      unfold fits at this; simp only [hu] at this; exact this
    have hij : s.sco.cur ≠ some j := by
      intro e; have := (cur_le hw e).2; omega
    rw [other (fun _ _ => hij) (noret (.inr (.inl hij))), h j, hn0, hn1]
  · exact absurd ⟨v, hp, ha, hc⟩ hret
  · subst ha
    rw [other (by simp) (noret (.inr (.inr (by rw [hp]; simp)))), stat_call h3]; exact h j
  · subst ha
    rw [other (by simp) (noret (.inr (.inr (by rw [hp]; simp)))), stat_call h3]; exact h j

theorem reach_invPd {ok} {s : S} (r : Reach ok s) : InvPd s := by
  induction r with
  | init a e => intro j; simp only [init]; split <;> rfl
  | step r a hok hs ih => exact ih.step r hs

/-- the call a coroutine is in -/
theorem pending_call {ok} {s : S} (r : Reach ok s) {i : Nat} {c : Call} : pending i s.log = some c ↔ (s.co i).call = c ∧ c ≠ .none := by
  rw [← pending_filter, show (s.log.filter Ev.rare) = rl s from rfl, reach_invPd r i]; exact callOpt_some

end Neco.Rt
