import Verif.Proof.RtSig
/-!
# Signals: who watches what, and to whom signals are handed
-/
namespace Neco.Rt
open Neco.Err

theorem testBit_one (n m : Nat) : (1 <<< n).testBit m = decide (n = m) := by rw [Nat.one_shiftLeft]; exact Nat.testBit_two_pow

theorem watches_cons {j n : Nat} {e : Ev} {l : List Ev} (h : ∀ c, e ≠ .call j c) : watches j n (e :: l) = watches j n l := by
  cases e <;> try rfl
  rename_i k c
  cases c <;> try rfl
  all_goals (simp only [watches]; rw [if_neg (fun e => h _ (by rw [e.1]))])
theorem watches_other {j n : Nat} {es l : List Ev} (h : ∀ c, .call j c ∉ es) : watches j n (es ++ l) = watches j n l := by
  induction es with
  | nil => rfl
  | cons e es ih =>
    rw [List.cons_append, watches_cons (fun c hc => h c (by rw [hc]; exact .head _)), ih (fun c hc => h c (.tail _ hc))]
theorem watches_fresh {j n : Nat} {l : List Ev} (h : ∀ c, .call j c ∉ l) : watches j n l = false := by
  have := watches_other (n := n) (l := []) h
  rw [List.append_nil] at this; exact this
theorem watches_rl (i n : Nat) (l : List Ev) : watches i n (l.filter Ev.rare) = watches i n l := by
  induction l with
  | nil => rfl
  | cons e l ih => cases e <;> simp [Ev.rare, List.filter_cons, ih, watches]; rename_i c; cases c <;> simp [watches, ih]

/-- what a coroutine watches is what it asked for -/
def InvWt (s : S) : Prop := ∀ j, 1 ≤ j → j ≤ s.sco.nextId → ∀ n, (s.co j).sigwatch.testBit n = watches j n (rl s)

theorem reach_invWt {ok} (hk : ∀ s a, ok s a → NoOldWatch s a) {s : S} (r : Reach ok s) : InvWt s := by
  induction r with
  | init a e =>
    intro j h1 h2 n
    have : j = 1 := by simp [init, Sco.start] at h2; omega
    subst this; show Nat.testBit 0 n = _; rw [Nat.zero_testBit]; rfl
  | @step s s' r a hok hs ih =>
    have hw := reach_scoWF r
    have hnx := step_nextId hw hs
    have hfr := (reach_invEn r).fr
    obtain ⟨es, hes, hr⟩ := step_rl hs
    intro j h1 hj n
    rw [hes]
    have other : (∀ c, a = .call c → s.sco.cur ≠ some j) → watches j n (es ++ rl s) = watches j n (rl s) :=
      fun h => watches_other (fun c hc => (h c (hr.calls hc).1) (hr.calls hc).2)
    by_cases hn : (a = .call .start ∨ a = .call .genStart) ∧ j = s.sco.nextId + 1
    · obtain ⟨ha, rfl⟩ := hn
      have hpool := hk _ _ hok ha
      obtain ⟨i, g, hc, e1, _⟩ := start_new ha hs
      rw [other (fun c _ hc => by have := (cur_le hw hc).2; omega), watches_fresh (fun c => hfr _ c (Nat.lt_succ_self _)), e1]
      unfold newCo; split
      · simp
      · rename_i c t p hp
        have := hpool _ (by rw [hp]; rfl)
        simp only at this ⊢
        rw [this]; simp
    have hle := old_id r hs hj hn
    have e0 := ih j h1 hle n
    have stw : ∀ {k k' : Co}, stat k = stat k' → k.sigwatch = k'.sigwatch := by
      intro k k' h; simp only [stat, Prod.mk.injEq] at h; exact h.2.2.2.2.2.2.1
    have old : (s'.co j).sigwatch = (s.co j).sigwatch → (∀ c, a = .call c → s.sco.cur ≠ some j) → (s'.co j).sigwatch.testBit n = watches j n (es ++ rl s) := by
      intro h1 h2
      rw [other h2, h1, e0]
    cases step_stat hw hs j with
    | same h hn => exact old (stw h) hn
    | call c ha hc hp h =>
      have h := stw h
      subst ha
      obtain ⟨fs, rfl, hfs⟩ := hr.ofCall hc
      rw [List.append_assoc, watches_other hfs, h]
      by_cases hcw : (∃ m, c = .sigWatch m) ∨ (∃ m, c = .sigUnwatch m)
      · rcases hcw with ⟨m, rfl⟩ | ⟨m, rfl⟩
        · simp only [callStat, List.singleton_append, watches, true_and]
          by_cases hv : m < 1 ∨ m > 31
          · rw [if_pos hv, if_neg (by omega)]; exact e0
          · rw [if_neg hv]
            simp only [Nat.testBit_or, testBit_one, e0]
            by_cases hm : m = n
            · rw [if_pos (by omega)]; simp [hm]
            · rw [if_neg (by omega)]; simp [hm]
        · simp only [callStat, List.singleton_append, watches, true_and]
          by_cases hv : m < 1 ∨ m > 31
          · rw [if_pos (.inl hv), if_neg (by omega)]; exact e0
          · by_cases ht : (s.co j).sigwatch.testBit m = false
            · rw [if_pos (.inr ht)]
              by_cases hm : m = n
              · rw [if_pos (by omega), ← hm]; exact ht
              · rw [if_neg (by omega)]; exact e0
            · rw [if_neg (by simp only [not_or]; exact ⟨by omega, ht⟩)]
              simp only [Nat.testBit_xor, testBit_one]
              by_cases hm : m = n
              · rw [if_pos (by omega), ← hm]; simp at ht; simp [ht]
              · rw [if_neg (by omega)]; simp [hm, e0]
      · have hcs : (callStat s j c { s.co j with call := c }).sigwatch = (s.co j).sigwatch := by
          cases c <;> first | rfl | (exact absurd (.inl ⟨_, rfl⟩) hcw) | (exact absurd (.inr ⟨_, rfl⟩) hcw)
        rw [hcs, e0]
        cases c <;> first | rfl | (exact absurd (.inl ⟨_, rfl⟩) hcw) | (exact absurd (.inr ⟨_, rfl⟩) hcw)
    | new i g ha hi hj' h =>
      exact absurd ⟨ha.elim (fun h => .inl h.1) (fun h => .inr h.1), hj'⟩ hn
    | ret v ha hc hp h => exact old ((stw h).trans rfl) (by rw [ha]; simp)
    | clean x q ha hc hp hq h => exact old ((stw h).trans rfl) (by rw [ha]; simp)
    | genRel x y ha hc hp h => exact old ((stw h).trans rfl) (by rw [ha]; simp)

theorem watch_iff {ok} (hk : ∀ s a, ok s a → NoOldWatch s a) {s : S} (r : Reach ok s) {j : Nat} (h1 : 1 ≤ j) (h2 : j ≤ s.sco.nextId) (n : Nat) :
    (s.co j).sigwatch.testBit n = watches j n s.log := by rw [reach_invWt hk r j h1 h2 n]; exact watches_rl ..

/-! ## The number of those who watch -/

def wb (s : S) (n j : Nat) : Int := if (s.co j).sigwatch.testBit n = true then 1 else 0

theorem tauCo_sigwatchers {s s' : S} {i : Nat} (hs : tauCo s i = some s') : s'.sigwatchers = s.sigwatchers := by
  have hb : ∀ (s : S) (i : Nat) (b : Blk), (afterBlk s i b).sigwatchers = s.sigwatchers := by
    intro s i b; cases b <;> simp only [afterBlk] <;> (repeat' split) <;> simp
  unfold tauCo at hs
  split at hs <;> (repeat' split at hs) <;> cases hs <;> simp [hb]

/-- only `neco_signal_watch` and `neco_signal_unwatch` change the number of those who watch -/
theorem step_sigwatchers {s s' : S} {a : Act} (hs : step s a = some s') :
    s'.sigwatchers = s.sigwatchers ∨ ∃ i m, s.sco.cur = some i ∧ 1 ≤ m ∧ m ≤ 31 ∧
      ((a = .call (.sigWatch m) ∧ (s.co i).sigwatch.testBit m = false ∧ s'.sigwatchers = fun k => if k = m then s.sigwatchers k + 1 else s.sigwatchers k) ∨
       (a = .call (.sigUnwatch m) ∧ (s.co i).sigwatch.testBit m = true ∧ s'.sigwatchers = fun k => if k = m then s.sigwatchers k - 1 else s.sigwatchers k)) := by
  unfold step at hs
  split at hs
  · cases hs
  cases a with
  | call c =>
    simp only at hs; (repeat' split at hs) <;> cases hs
    rename_i i hc _
    by_cases hcw : (∃ m, c = .sigWatch m) ∨ (∃ m, c = .sigUnwatch m)
    · rcases hcw with ⟨m, rfl⟩ | ⟨m, rfl⟩
      · simp only [doCall, doSigWatch]
        by_cases hv : m < 1 ∨ m > 31
        · rw [if_pos hv]; exact .inl (by simp)
        · rw [if_neg hv]
          by_cases ht : (s.co i).sigwatch.testBit m = true
          · rw [if_pos (by simpa [upd_co] using ht)]; exact .inl (by simp)
          · rw [if_neg (by simpa [upd_co] using ht)]
            exact .inr ⟨i, m, hc, by omega, by omega, .inl ⟨rfl, by simpa using ht, by simp⟩⟩
      · simp only [doCall, doSigUnwatch]
        by_cases hv : m < 1 ∨ m > 31
        · rw [if_pos hv]; exact .inl (by simp)
        · rw [if_neg hv]
          by_cases ht : (s.co i).sigwatch.testBit m = true
          · rw [if_pos (by simpa [upd_co] using ht)]
            exact .inr ⟨i, m, hc, by omega, by omega, .inr ⟨rfl, ht, by simp⟩⟩
          · rw [if_neg (by simpa [upd_co] using ht)]; exact .inl (by simp)
    · refine .inl ?_
      cases c <;> first
        | (exact absurd (.inl ⟨_, rfl⟩) hcw) | (exact absurd (.inr ⟨_, rfl⟩) hcw)
        | (simp only [doCall]; (repeat' split) <;> simp)
  | finish => simp only at hs; (repeat' split at hs) <;> cases hs; exact .inl (by simp)
  | tau =>
    simp only at hs
    split at hs
    · exact .inl (tauCo_sigwatchers hs)
    · unfold tauMain at hs
      (repeat' split at hs) <;> cases hs <;> exact .inl (by simp)
  | submit ok => simp only at hs; (repeat' split at hs) <;> cases hs <;> exact .inl (by simp)
  | events evs => simp only at hs; split at hs <;> cases hs; refine .inl ?_; simp only; split <;> simp
  | clock t => simp only at hs; split at hs <;> cases hs; exact .inl rfl
  | signal n => simp only at hs; (repeat' split at hs) <;> cases hs <;> exact .inl rfl
  | wdone i => simp only at hs; (repeat' split at hs) <;> cases hs; exact .inl (by simp)

theorem reach_watchers {ok} (hk : ∀ s a, ok s a → NoOldWatch s a) {s : S} (r : Reach ok s) (n : Nat) : s.sigwatchers n = sumTo (wb s n) (s.sco.nextId + 1) := by
  induction r with
  | init a e => simp [init, sumTo, Sco.start, wb]
  | @step s s' r a hok hs ih =>
    have hw := reach_scoWF r
    have stw : ∀ {k k' : Co}, stat k = stat k' → k.sigwatch = k'.sigwatch := by
      intro k k' h; simp only [stat, Prod.mk.injEq] at h; exact h.2.2.2.2.2.2.1
    -- others keep what they watch
    have hoth : ∀ j, (∀ m, a = .call (.sigWatch m) ∨ a = .call (.sigUnwatch m) → s.sco.cur ≠ some j) → ¬ ((a = .call .start ∨ a = .call .genStart) ∧ j = s.sco.nextId + 1) → wb s' n j = wb s n j := by
      intro j hj hn
      have : (s'.co j).sigwatch = (s.co j).sigwatch := by
        cases step_stat hw hs j with
        | same h hn => exact stw h
        | call c ha hc hp h =>
          rw [stw h]
          cases c <;> first | rfl | exact absurd hc (hj _ (.inl ha)) | exact absurd hc (hj _ (.inr ha))
        | new i g ha hi hj' h => exact absurd ⟨ha.elim (fun h => .inl h.1) (fun h => .inr h.1), hj'⟩ hn
        | ret v ha hc hp h => exact (stw h).trans rfl
        | clean x q ha hc hp hq h => exact (stw h).trans rfl
        | genRel x y ha hc hp h => exact (stw h).trans rfl
      unfold wb; rw [this]
    rcases step_sigwatchers hs with h | ⟨i, m, hc, hm1, hm2, h⟩
    · have hnx := nx_step hs (reach_invA r)
      -- the bits of the caller may be rewritten, but not changed
      have hsame : ∀ j, j < s.sco.nextId + 1 → wb s' n j = wb s n j := by
        intro j hj
        by_cases hj' : ∀ m, a = .call (.sigWatch m) ∨ a = .call (.sigUnwatch m) → s.sco.cur ≠ some j
        · exact hoth j hj' (fun h => by omega)
        · simp only [Classical.not_forall] at hj'
          obtain ⟨m, ha, hcj⟩ := hj'
          have hcj := Classical.not_not.mp hcj
          have hpc := step_call_of (c := if a = .call (.sigWatch m) then .sigWatch m else .sigUnwatch m) (by rcases ha with rfl | rfl <;> simpa using hs) hcj
          obtain ⟨_, _, e⟩ := hpc
          rcases ha with rfl | rfl
          · simp only [if_true, doCall, doSigWatch] at e
            by_cases hv : m < 1 ∨ m > 31
            · rw [if_pos hv] at e; subst e; simp [wb, retv_co, callSt, upd_co]
            · rw [if_neg hv] at e
              by_cases ht : (s.co j).sigwatch.testBit m = true
              · rw [if_pos (by simpa [callSt, upd_co] using ht)] at e; subst e; simp [wb, retv_co, callSt, upd_co]
              · rw [if_neg (by simpa [callSt, upd_co] using ht)] at e
                subst e
                have := congrFun h m
                simp only [retv_sigwatchers, if_true] at this
                have e : (callSt s j (.sigWatch m)).sigwatchers m = s.sigwatchers m := rfl
                omega
          · simp only [reduceCtorEq, Act.call.injEq, if_false, doCall, doSigUnwatch] at e
            by_cases hv : m < 1 ∨ m > 31
            · rw [if_pos hv] at e; subst e; simp [wb, retv_co, callSt, upd_co]
            · rw [if_neg hv] at e
              by_cases ht : (s.co j).sigwatch.testBit m = true
              · rw [if_pos (by simpa [callSt, upd_co] using ht)] at e
                subst e
                have := congrFun h m
                simp only [retv_sigwatchers, if_true] at this
                have e : (callSt s j (.sigUnwatch m)).sigwatchers m = s.sigwatchers m := rfl
                omega
              · rw [if_neg (by simpa [callSt, upd_co] using ht)] at e; subst e; simp [wb, retv_co, callSt, upd_co]
      rw [h, ih]
      split at hnx
      · rename_i ha
        rw [hnx, sumTo.eq_2 _ (s.sco.nextId + 1), sumTo_eq hsame]
        have : wb s' n (s.sco.nextId + 1) = 0 := by
          have hpool := hk _ _ hok ha
          obtain ⟨i, g, hc, e1, _⟩ := start_new ha hs
          unfold wb; rw [e1]; unfold newCo; split
          · simp
          · rename_i c t p hp
            have := hpool _ (by rw [hp]; rfl)
            simp only at this ⊢
            rw [this]; simp
        omega
      · rw [hnx, Nat.add_zero, sumTo_eq hsame]
    · have hnx : s'.sco.nextId = s.sco.nextId := by
        have := nx_step hs (reach_invA r)
        rwa [if_neg (by rcases h with ⟨rfl, _⟩ | ⟨rfl, _⟩ <;> simp)] at this
      have hi := (cur_le hw hc).2
      rw [hnx]
      have := sumTo_upd (f := wb s n) (g := wb s' n) (i := i) (n := s.sco.nextId + 1) (fun j hj hjn => hoth j (fun _ _ e => hj (by rw [hc] at e; cases e; rfl)) (fun h => by omega)) (by omega)
      have hcs : ∀ c, a = .call c → (s'.co i).sigwatch = (callStat s i c { s.co i with call := c }).sigwatch := by
        intro c ha
        cases step_stat hw hs i with
        | same h hn => exact absurd hc (hn c ha)
        | call c' ha' hc hp h => rw [ha] at ha'; cases ha'; exact stw h
        | new i' g ha hi hj' h => omega
        | ret v ha' => rw [ha] at ha'; cases ha'
        | clean x q ha' => rw [ha] at ha'; cases ha'
        | genRel x y ha' => rw [ha] at ha'; cases ha'
      rcases h with ⟨ha, ht, h⟩ | ⟨ha, ht, h⟩
      · have hb := hcs _ ha
        simp only [callStat] at hb
        rw [if_neg (by omega)] at hb
        rw [h]; simp only
        have e1 : wb s' n i = wb s n i + if n = m then 1 else 0 := by
          unfold wb; rw [hb]; simp only [Nat.testBit_or, testBit_one]
          by_cases hm : n = m
          · subst hm; simp [ht]
          · simp [hm, Ne.symm hm]
        split at e1 <;> rename_i hm
        · rw [if_pos hm]; omega
        · rw [if_neg hm]; omega
      · have hb := hcs _ ha
        simp only [callStat] at hb
        rw [if_neg (by simp only [not_or]; exact ⟨by omega, by simp [ht]⟩)] at hb
        rw [h]; simp only
        have e1 : wb s' n i = wb s n i - if n = m then 1 else 0 := by
          unfold wb; rw [hb]; simp only [Nat.testBit_xor, testBit_one]
          by_cases hm : n = m
          · subst hm; simp [ht]
          · simp [hm, Ne.symm hm]
        split at e1 <;> rename_i hm
        · rw [if_pos hm]; omega
        · rw [if_neg hm]; omega

theorem sumTo_nonneg {f : Nat → Int} {n : Nat} (h : ∀ j, 0 ≤ f j) : 0 ≤ sumTo f n := by
  induction n with
  | zero => exact Int.le_refl _
  | succ n ih => rw [sumTo]; have := h n; omega
theorem sumTo_ge {f : Nat → Int} {n j : Nat} (h : ∀ j, 0 ≤ f j) (hj : j < n) : f j ≤ sumTo f n := by
  induction n with
  | zero => omega
  | succ n ih =>
    rw [sumTo]
    by_cases e : j = n
    · subst e; have := sumTo_nonneg (n := j) h; omega
    · have := ih (by omega); have := h n; omega

theorem call_id {ok} {s : S} (r : Reach ok s) {j : Nat} {c : Call} (h : .call j c ∈ s.log) : 1 ≤ j ∧ j ≤ s.sco.nextId := by
  have h2 : .call j c ∈ rl s := (mem_rl rfl).mpr h
  refine ⟨?_, Classical.byContradiction fun hn => (reach_invEn r).fr j c (by omega) h2⟩
  clear h
  induction r with
  | init a e => simp [init, rl, Ev.rare] at h2
  | @step s s' r a hok hs ih =>
    obtain ⟨es, hes, hr⟩ := step_rl hs
    rw [hes] at h2
    rcases List.mem_append.mp h2 with h | h
    · exact (cur_le (reach_scoWF r) (hr.calls h).2).1
    · exact ih h

theorem pending_mem {j : Nat} {c : Call} {l : List Ev} (h : pending j l = some c) : .call j c ∈ l := by
  induction l with
  | nil => cases h
  | cons e l ih =>
    cases e <;> simp only [pending] at h <;> first | exact .tail _ (ih h) | skip
    all_goals
      split at h
      · first | (cases h; done) | (rename_i e; subst e; cases h; exact .head _)
      · exact .tail _ (ih h)

/-- as long as somebody watches a signal, it is kept -/
theorem watched_ne {ok} (hk : ∀ s a, ok s a → NoOldWatch s a) {s : S} (r : Reach ok s) {n j : Nat} (h : watches j n s.log = true) : s.sigwatchers n ≠ 0 := by
  have hj : 1 ≤ j ∧ j ≤ s.sco.nextId := by
    have hh : ∃ c, .call j c ∈ s.log := by
      apply Classical.byContradiction; intro hn
      simp only [not_exists] at hn
      rw [watches_fresh hn] at h; cases h
    obtain ⟨c, hc⟩ := hh
    exact call_id r hc
  rw [reach_watchers hk r n]
  have h1 : wb s n j = 1 := by unfold wb; rw [watch_iff hk r hj.1 hj.2, if_pos h]
  have := sumTo_ge (f := wb s n) (n := s.sco.nextId + 1) (j := j) (fun j => by unfold wb; split <;> decide) (by omega)
  omega

theorem still_eq {n : Nat} {ok} (hk : ∀ s a, ok s a → StillWatched n s a) {s : S} (r : Reach ok s) : arrived n s.log = delivered n s.log + s.sigqueue n := by
  refine sig_eq (ok := ok) ?_ r
  intro s a r hok h
  have hs := hk _ _ hok
  obtain ⟨j, hj⟩ := hs.2 (h.imp id (fun h => by have := sig_le r n; omega))
  exact watched_ne (fun s a h => (hk s a h).1) r hj

/-! ## To whom a signal is handed -/

theorem deliver_to {ok} {s : S} (r : Reach ok s) (hf : s.fault = false) {n : Nat} {w : Node} (hc : s.sco.cur = none) (hm : s.main = .sig)
    (hw : (s.lists .sigQ).find? (fun w => (s.co w.owner).sigmask.testBit n) = some w) :
    (s.co w.owner).pc = .blk .sig ∧ (∃ dl, (s.co w.owner).call = .sigWait dl) ∧ ¬ Told w.owner s ∧ (s.co w.owner).sigwatch.testBit n = true ∧ 1 ≤ w.owner ∧ w.owner ≤ s.sco.nextId := by
  have hmem := List.mem_of_find?_eq_some hw
  have hbit := List.find?_some hw
  have hL := reach_invL r
  have hpl := hL.pl _ _ hmem
  have how := hL.ow _ _ hmem
  have hp : (s.co w.owner).pc = .blk .sig ∧ ∃ dl, (s.co w.owner).call = .sigWait dl := by
    cases w with
    | co j => exact hpl
    | case j k => exact hpl.elim
  have h1 : 1 ≤ w.owner := by
    have := call_id r (pending_mem ((pending_call r (i := w.owner)).mpr ⟨rfl, by obtain ⟨dl, h⟩ := hp.2; rw [h]; simp⟩))
    exact this.1
  have ht : ¬ Told w.owner s := by
    intro ht
    obtain ⟨h2, h3⟩ := (reach_invSg r hf w.owner).rd hp.1 ht
    rcases place_of (reach_scoWF r) h1 how with h | h | h | h
    · have := ((reach_invD r).dd w.owner).mp h
      rw [hp.1] at this; cases this
    · rw [hc] at h; cases h
    · rcases h with h | h
      · rw [(reach_scoWF r).main hc] at h; cases h
      · have := (h3 h).2; rw [hm] at this; simp at this
    · exact h2 h
  refine ⟨hp.1, hp.2, ht, ?_, h1, how⟩
  rw [← (reach_invSg r hf w.owner).wt hp.1 ht]; exact hbit

/-- what is true whenever a signal is handed to a coroutine -/
def SigOk (watch : Bool) (e : Ev) (b : List Ev) : Prop :=
  ∀ n j, e = .sigTo n j → (∃ dl, pending j b = some (.sigWait dl)) ∧ (∀ m, .sigTo m j ∉ since j b) ∧ (watch = true → watches j n b = true)

theorem reach_sigOk {ok} {watch : Bool} (hk : watch = true → ∀ s a, ok s a → NoOldWatch s a) {s : S} (r : Reach ok s) : Hist (SigOk watch) s.log := by
  induction r with
  | init a e => exact ⟨fun n j h => by (cases h), trivial⟩
  | @step s s' r a hok hs ih =>
    cases step_sig hs with
    | none es hl hn hq => rw [hl]; exact ih.append (fun e he b n j h => by subst h; exact absurd rfl (hn _ he).2)
    | arrive n ha hl hq => rw [hl]; exact ⟨fun n j h => by (cases h), ih⟩
    | drop n ha hc hm h0 hw' hl hq => rw [hl]; exact ih
    | deliver n w ha hc hm h0 hlow hw' hfd hl hq hco hsco hmn =>
      rw [hl]
      refine ⟨fun n' j h => ?_, ih⟩
      cases h
      obtain ⟨h1, ⟨dl, h2⟩, h3, h4, h5, h6⟩ := deliver_to r (step_nofault hs) hc hm hfd
      refine ⟨⟨dl, (pending_call r).mpr ⟨h2, by simp⟩⟩, fun m hm => h3 ⟨m, hm⟩, fun hwt => ?_⟩
      rw [← watch_iff (hk hwt) r h5 h6]; exact h4

theorem sigqueue_low {ok} {s : S} (r : Reach ok s) {n : Nat} (h : s.sigqueue n ≠ 0) : n < 32 := by
  induction r with
  | init a e => simp [init] at h
  | @step s s' r a hok hs ih =>
    cases step_sig hs with
    | none es hl hn hq => rw [hq] at h; exact ih h
    | arrive m ha hl hq =>
      have hm : m ∈ allowedSig := by
        subst ha; unfold step at hs; split at hs
        · cases hs
        · simp only at hs; split at hs
          · assumption
          · cases hs
      have : m < 32 := by simp [allowedSig] at hm; omega
      rw [hq] at h
      split at h
      · exact ih h
      · simp only at h; split at h
        · omega
        · exact ih h
    | drop m ha hc hm h0 hw hl hq => rw [hq] at h; simp only at h; split at h <;> exact ih (by omega)
    | deliver m w ha hc hm h0 hlow hw hf hl hq => rw [hq] at h; simp only at h; split at h <;> exact ih (by omega)

theorem find_range {f : Nat → Bool} {n m : Nat} (hn : n < m) (h : f n = true) (hl : ∀ k, k < n → f k = false) : (List.range m).find? f = some n := by
  induction m with
  | zero => omega
  | succ m ih =>
    rw [List.range_succ, List.find?_append]
    by_cases e : n = m
    · subst e
      rw [List.find?_eq_none.mpr (fun x hx => by rw [hl x (by simpa using hx)]; simp)]
      simp [h]
    · rw [ih (by omega)]; rfl

theorem find_first {α : Type} {p : α → Bool} {l : List α} {x y : α} {R : α → α → Prop} (hf : l.find? p = some x) (hy : y ∈ l) (hp : p y = true) (hR : l.Pairwise R) : x = y ∨ R x y := by
  induction l with
  | nil => cases hy
  | cons z l ih =>
    simp only [List.find?_cons] at hf
    split at hf
    · cases hf
      rcases List.mem_cons.mp hy with rfl | hy
      · exact .inl rfl
      · exact .inr ((List.pairwise_cons.mp hR).1 _ hy)
    · rename_i hz
      rcases List.mem_cons.mp hy with rfl | hy
      · rw [hz] at hp; cases hp
      · exact ih hf hy (List.pairwise_cons.mp hR).2

/-- a coroutine that waits for signals is in their queue, and was not handed one yet -/
theorem sig_in {s : S} (hf : s.fault = false) {i : Nat} (f : Fresh i s) {dl : Int} (h : Asleep s i) (hp : pending i s.log = some (.sigWait dl)) : .co i ∈ s.lists .sigQ ∧ (s.co i).pc = .blk .sig ∧ ¬ Told i s := by
  have r := f.reach
  obtain ⟨hb, hw⟩ := h
  have hcall := ((pending_call r).mp hp).1
  obtain ⟨b, hpc, dl', hbc, _⟩ := blocked_blk r hb hp (pending_ne_work f hp (by simp))
  have hbb : b = .sig := by
    cases b <;> simp [BlkC] at hbc <;> first | rfl | (rename_i x; cases x <;> simp [BlkC] at hbc)
  subst hbb
  have hsv := (f.coE.bk _ hpc).sv
  unfold Own at hsv; rw [hcall] at hsv
  obtain ⟨L, h1, h2, h3⟩ := hsv.1
  have hpl := (reach_invL r).pl L _ h3
  simp only [Node.owner] at hpl
  cases L <;> simp [place, hpc, hcall] at hpl h1 h2
  exact ⟨h3, hpc, fun ht => ((reach_invSg r hf i).rd hpc ht).1 hb⟩

end Neco.Rt
