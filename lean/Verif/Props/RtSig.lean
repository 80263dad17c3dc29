import Verif.Proof.RtSig2
import Verif.Props.RtCancel
/-!
# Signals (C34)
-/
namespace Neco.Rt
open Neco.Err

/-! ## C34 watched signals are delivered to one waiter each -/

/-- each arrival of a signal is handed to at most one coroutine -/
theorem C34_at_most_one {ok} {s : S} (r : Reach ok s) (n : Nat) : delivered n s.log ≤ arrived n s.log := by
  have := sig_le r n; omega

/-- a signal is only handed to a coroutine that waits for signals, and to which this wait has not been handed one yet -/
theorem C34_waiter {ok} {s : S} (r : Reach ok s) {a b : List Ev} {n j : Nat} (h : s.log = a ++ .sigTo n j :: b) :
    (∃ dl, pending j b = some (.sigWait dl)) ∧ ∀ m, .sigTo m j ∉ since j b :=
  let h := (reach_sigOk (watch := false) (by simp) r).split h n j rfl
  ⟨h.1, h.2.1⟩

/-- a signal is only handed to a coroutine that watches it.  (Partial: provided no coroutine is started in a control block in which an earlier one left watched signals, see `C34_watches_not_general`.) -/
theorem C34_watches_partial {s : S} (r : Reach NoOldWatch s) {a b : List Ev} {n j : Nat} (h : s.log = a ++ .sigTo n j :: b) : watches j n b = true :=
  ((reach_sigOk (watch := true) (fun _ _ _ h => h) r).split h n j rfl).2.2 rfl

/-- one call is handed at most one signal -/
theorem C34_once {ok} {s : S} (r : Reach ok s) (i : Nat) : (since i s.log).countP (toldBy i) ≤ 1 := by
  have H := reach_sigOk (watch := false) (by simp) r
  have key : ∀ (l : List Ev), Hist (SigOk false) l → (since i l).countP (toldBy i) ≤ 1 := by
    intro l
    induction l with
    | nil => intro _; simp [since]
    | cons e l ih =>
      intro hl
      have ih := ih hl.2
      by_cases he : isCallOf i e = true
      · have : since i (e :: l) = [] := by unfold since; rw [List.takeWhile_cons_of_neg (by simp [he])]
        rw [this]; simp
      · have h1 : since i (e :: l) = e :: since i l := by unfold since; rw [List.takeWhile_cons_of_pos (by simpa using he)]
        rw [h1, List.countP_cons]
        by_cases ht : toldBy i e = true
        · have h0 : (since i l).countP (toldBy i) = 0 := by
            rw [List.countP_eq_zero]
            intro x hx hxt
            cases e <;> simp [toldBy] at ht
            cases x <;> simp [toldBy] at hxt
            subst ht; subst hxt
            exact (hl.1 _ _ rfl).2.1 _ hx
          rw [h0]; simp [ht]
        · simp [ht]; exact ih
  exact key _ H

/-- a number returned by `neco_signal_wait` is a signal the call was handed.  (Partial: provided no stale wake-up is pending when the call is made, see `C34_result_not_general`.) -/
theorem C34_result_partial {s : S} {i : Nat} (f : Fresh i s) {dl v : Int} {d : Msg} (h : Returns s i (.sigWait dl) v d) (hv : 0 ≤ v) : .sigTo v.toNat i ∈ since i s.log := by
  have r := f.reach
  have := (returns_ok f h).2.2
  unfold CallOk at this
  exact mem_sn (this hv)

theorem told_unique {ok} {s : S} (r : Reach ok s) {i n m : Nat} (h1 : .sigTo n i ∈ since i s.log) (h2 : .sigTo m i ∈ since i s.log) : n = m := by
  have h := C34_once r i
  generalize since i s.log = l at *
  induction l with
  | nil => cases h1
  | cons e l ih =>
    rw [List.countP_cons] at h
    rcases List.mem_cons.mp h1 with a | a <;> rcases List.mem_cons.mp h2 with b | b
    · rw [← b] at a; cases a; rfl
    · have : 0 < l.countP (toldBy i) := List.countP_pos_iff.mpr ⟨_, b, by simp [toldBy]⟩
      rw [← a, if_pos (by simp [toldBy])] at h; omega
    · have : 0 < l.countP (toldBy i) := List.countP_pos_iff.mpr ⟨_, a, by simp [toldBy]⟩
      rw [← b, if_pos (by simp [toldBy])] at h; omega
    · exact ih a b (by omega)

/-- a call that was handed a signal returns its number, unless it was canceled or its deadline had passed.  (Partial: see `C34_told_not_general`.) -/
theorem C34_told_partial {s : S} {i n : Nat} (f : Fresh i s) {dl v : Int} {d : Msg} (h : Returns s i (.sigWait dl) v d) (ht : .sigTo n i ∈ since i s.log) :
    v = n ∨ (v = CANCELED ∧ ∃ k, .cancel k i ∈ s.log) ∨ (v = TIMEDOUT ∧ dl < s.clock) ∨ v = NOSIGWATCH := by
  have r := f.reach
  by_cases hv : 0 ≤ v
  · have := told_unique r ht (C34_result_partial f h hv)
    exact .inl (by omega)
  · have hc := returns_codes r h
    have h2 := returns_ok f h
    simp only [codes] at hc
    rcases hc with hc | hc | hc | hc
    · exact absurd hc hv
    · exact .inr (.inr (.inl ⟨hc, by obtain ⟨dl', e, h3⟩ := h2.2.1 hc; cases e; exact h3⟩))
    · exact .inr (.inl ⟨hc, h2.1 hc⟩)
    · exact .inr (.inr (.inr hc))

/-- as long as a signal is watched, no arrival is forgotten: it is handed to a coroutine or remains pending -/
theorem C34_no_loss_partial {n : Nat} {s : S} (r : Reach (StillWatched n) s) : arrived n s.log = delivered n s.log + s.sigqueue n := still_eq (fun _ _ h => h) r

/-- a pending signal that some coroutine waits for and watches is handed, when the main loop next looks at the signals, to the one that called first among those.
(Partial: provided no lower signal is pending, see `C34_due_not_general`; the wait made with no wake-up left over, and no old control blocks.) -/
theorem C34_due_partial {n : Nat} {s : S} (r : Reach (StillWatched n) s) (ha : AtSignals s) (hp : delivered n s.log < arrived n s.log)
    (hl : ∀ m, m < n → delivered m s.log = arrived m s.log) {j : Nat} {dl : Int} (f : Fresh j s) (hj : Asleep s j) (hw : pending j s.log = some (.sigWait dl)) (hwt : watches j n s.log = true) :
    ∃ s' k dl', step s .tau = some s' ∧ s'.log = .sigTo n k :: s.log ∧ pending k s.log = some (.sigWait dl') ∧ watches k n s.log = true ∧ (k = j ∨ CalledBefore k j s.log) := by
  obtain ⟨hc, hm, hd, hf⟩ := ha
  have hk : ∀ s a, StillWatched n s a → NoOldWatch s a := fun _ _ h => h.1
  have hq : s.sigqueue n ≠ 0 := by have := still_eq (fun _ _ h => h) r; omega
  have h32 := sigqueue_low r hq
  have hne := watched_ne hk r hwt
  obtain ⟨h1, h2, h3⟩ := sig_in hf f hj hw
  have hid := call_id r (pending_mem hw)
  have hbit : (s.co j).sigmask.testBit n = true := by
    rw [(reach_invSg r hf j).wt h2 h3, watch_iff hk r hid.1 hid.2]; exact hwt
  have hfind : (List.range 32).find? (fun n => decide (s.sigqueue n ≠ 0)) = some n := by
    refine find_range h32 (by simpa using hq) (fun k hk => ?_)
    have := sig_le r k; have := hl k hk; simp; omega
  obtain ⟨w, hw'⟩ : ∃ w, (s.lists .sigQ).find? (fun w => (s.co w.owner).sigmask.testBit n) = some w := by
    cases e : (s.lists .sigQ).find? (fun w => (s.co w.owner).sigmask.testBit n) with
    | some w => exact ⟨w, rfl⟩
    | none => exact absurd hbit (List.find?_eq_none.mp e _ h1)
  obtain ⟨g1, ⟨dl', g2⟩, g3, g4, g5, g6⟩ := deliver_to r hf hc hm hw'
  refine ⟨{ mSig s with main := .dl }, w.owner, dl', ?_, ?_, (pending_call r).mpr ⟨g2, by simp⟩, ?_, ?_⟩
  · unfold step; rw [if_neg (by simp [hd, hf, hm])]; simp [hc, tauMain, hm]
  · simp only [mSig, hfind, if_neg hne, hw']; rfl
  · rw [← watch_iff hk r g5 g6]; exact g4
  · have hord := reach_invFifo r .sigQ (by simp) (by simp)
    rcases find_first hw' h1 hbit hord with e | e
    · exact .inl (by rw [e]; rfl)
    · refine .inr (e ?_ ⟨j, .sig, rfl, h2, rfl⟩)
      have hpl := (reach_invL r).pl _ _ (List.mem_of_find?_eq_some hw')
      cases w with
      | co k => exact ⟨k, .sig, rfl, g1, rfl⟩
      | case k x => exact hpl.elim

/-! ## The theorems are not about nothing -/

/-- `NoOldWatch` as a test -/
def noOldWatchB (s : S) : Act → Bool
  | .call .start | .call .genStart => match s.pool with | [] => true | p :: _ => p.1.sigwatch == 0
  | _ => true
theorem noOldWatchB_ok {s : S} {a : Act} (h : noOldWatchB s a = true) : NoOldWatch s a := by
  have key : ∀ p, (match s.pool with | [] => true | p :: _ => p.1.sigwatch == 0) = true → s.pool.head? = some p → p.1.sigwatch = 0 := by
    intro p h hp
    cases hq : s.pool with
    | nil => rw [hq] at hp; cases hp
    | cons q qs => rw [hq] at hp h; simp at hp; subst hp; simpa using h
  rintro (rfl | rfl) p hp <;> exact key p h hp
/-- `StillWatched` as a test -/
def stillB (n : Nat) (s : S) (a : Act) : Bool :=
  noOldWatchB s a && (!(a == .signal n || decide (delivered n s.log < arrived n s.log)) || (List.range (s.sco.nextId + 1)).any (fun j => watches j n s.log))
theorem stillB_ok {n : Nat} {s : S} {a : Act} (h : stillB n s a = true) : StillWatched n s a := by
  simp only [stillB, Bool.and_eq_true, Bool.or_eq_true, Bool.not_eq_true', Bool.or_eq_false_iff, beq_eq_false_iff_ne, decide_eq_false_iff_not, List.any_eq_true] at h
  refine ⟨noOldWatchB_ok h.1, fun hx => ?_⟩
  rcases h.2 with h2 | ⟨j, _, h2⟩
  · rcases hx with hx | hx
    · exact absurd hx h2.1
    · exact absurd hx h2.2
  · exact ⟨j, h2⟩

/-- 2 and 3 watch signals 1 and 2 and wait; then signal 2 arrives, once -/
def sgSome : List Sc := [.on 1 (.call .start), .on 2 (.call (.sigWatch 1)), .on 2 (.call (.sigWatch 2)), .on 2 (.call (.sigWait MAX)), .on 1 (.call .start), .on 3 (.call (.sigWatch 2)),
  .on 3 (.call (.sigWait MAX)), .on 1 (.call .yield), .til (fun s => s.main == .ev && s.sco.cur == none), .raw (.signal 2)]
example : ∃ s, Reach (StillWatched 2) s ∧ Fresh 3 s ∧ AtSignals s ∧ delivered 2 s.log < arrived 2 s.log ∧ (∀ m, m < 2 → delivered m s.log = arrived m s.log) ∧
    Asleep s 3 ∧ pending 3 s.log = some (.sigWait MAX) ∧ watches 3 2 s.log = true ∧ Asleep s 2 ∧ watches 2 2 s.log = true := by
  obtain ⟨s, r, h⟩ := scriptW (ok := fun s a => Clean s a ∧ StillWatched 2 s a) (okB := fun s a => cleanB s a && stillB 2 s a) (fun s a h => by simp at h; exact ⟨cleanB_clean h.1, stillB_ok h.2⟩)
    (a := false) (e := true) (l := sgSome) (p := fun s => decide ((s.sco.cur = none ∧ s.main = .sig ∧ s.dead = false ∧ s.fault = false) ∧ delivered 2 s.log < arrived 2 s.log ∧ (delivered 0 s.log = arrived 0 s.log ∧ delivered 1 s.log = arrived 1 s.log) ∧
    (3 ∈ s.sco.paused ∧ ¬ Node.co 3 ∈ s.lists .resumers) ∧ pending 3 s.log = some (.sigWait MAX) ∧ watches 3 2 s.log = true ∧ (2 ∈ s.sco.paused ∧ ¬ Node.co 2 ∈ s.lists .resumers) ∧ watches 2 2 s.log = true)) (by decide +kernel)
  obtain ⟨h1, h2, h3, h4⟩ := of_decide_eq_true h
  refine ⟨s, r.mono (fun _ _ h => h.2), pending_fresh (r.mono (fun _ _ h => h.1)) h4.2.1, h1, h2, fun m hm => ?_, h4⟩
  rcases m with _ | _ | m
  · exact h3.1
  · exact h3.2
  · omega
/-- 2, who was first, gets the signal -/
example : ∃ s, Fresh 2 s ∧ Returns s 2 (.sigWait MAX) 2 0 ∧ .sigTo 2 2 ∈ since 2 s.log ∧ delivered 2 s.log = 1 ∧ arrived 2 s.log = 1 := by
  obtain ⟨s, r, h⟩ := scriptC sgSome (p := fun s => returnsB s 2 (.sigWait MAX) 2 0 && decide (.sigTo 2 2 ∈ since 2 s.log ∧ delivered 2 s.log = 1 ∧ arrived 2 s.log = 1)) (by decide +kernel)
  simp only [Bool.and_eq_true] at h
  exact ⟨s, (returnsB_iff.mp h.1).fresh r, returnsB_iff.mp h.1, of_decide_eq_true h.2⟩
example : ∃ s a b, Reach NoOldWatch s ∧ s.log = a ++ .sigTo 2 2 :: b := by
  obtain ⟨s, r, h⟩ := scriptW (ok := NoOldWatch) (okB := noOldWatchB) (fun s a h => noOldWatchB_ok h) (a := false) (e := true) (l := sgSome) (p := fun s => decide (.sigTo 2 2 ∈ s.log)) (by decide +kernel)
  obtain ⟨a, b, h⟩ := List.append_of_mem (of_decide_eq_true h)
  exact ⟨s, a, b, r, h⟩

/-- **False of the code**: a coroutine started in the control block of one that had watched a signal is handed that signal although it never watched it -/
theorem C34_watches_not_general : ¬ ∀ (s : S) (a b : List Ev) (n j : Nat), Reach Clean s → s.log = a ++ .sigTo n j :: b → watches j n b = true := by
  intro h
  obtain ⟨s, r, hp⟩ := scriptC [.on 1 (.call .start), .on 2 (.call (.sigWatch 2)), .on 2 (.call .exit), .til (turn 1), .raw (.call .start), .on 3 (.call (.sigWait MAX)), .til (fun s => s.main == .ev && s.sco.cur == none), .raw (.signal 2)]
    (p := fun s => decide (.sigTo 2 3 ∈ s.log ∧ watches 3 2 s.log = false ∧ Ev.call 3 (.sigUnwatch 2) ∉ s.log)) (by decide +kernel)
  obtain ⟨h1, h2, h4⟩ := of_decide_eq_true hp
  obtain ⟨a, b, e⟩ := List.append_of_mem h1
  have hb := h s a b 2 3 r e
  have : ∀ a : List Ev, watches 3 2 (a ++ .sigTo 2 3 :: b) = false → .call 3 (.sigUnwatch 2) ∈ a ∨ watches 3 2 b = false := by
    intro a
    induction a with
    | nil => intro h; exact .inr h
    | cons x a ih =>
      intro h
      cases x <;> simp only [List.cons_append, watches] at h <;> try exact (ih h).imp (fun h => .tail _ h) id
      rename_i k c
      cases c <;> simp only [watches] at h <;> try exact (ih h).imp (fun h => .tail _ h) id
      · split at h
        · cases h
        · exact (ih h).imp (fun h => .tail _ h) id
      · split at h
        · rename_i e; obtain ⟨rfl, rfl, _⟩ := e; exact .inl (.head _)
        · exact (ih h).imp (fun h => .tail _ h) id
  rw [e] at h2
  rcases this a h2 with h3 | h3
  · exact h4 (by rw [e]; exact List.mem_append_left _ h3)
  · rw [hb] at h3; cases h3

/-- **False of the code**: a pending signal that a coroutine waits for is not handed out while a lower one is pending that somebody watches but nobody waits for -/
theorem C34_due_not_general : ¬ ∀ (s s' : S) (n j : Nat) (dl : Int), Reach (fun s a => Clean s a ∧ StillWatched n s a) s → AtSignals s → delivered n s.log < arrived n s.log → Asleep s j →
    pending j s.log = some (.sigWait dl) → watches j n s.log = true → step s .tau = some s' → ∃ k, s'.log = .sigTo n k :: s.log := by
  intro h
  obtain ⟨s, r, hp⟩ := scriptW (ok := fun s a => Clean s a ∧ StillWatched 2 s a) (okB := fun s a => cleanB s a && stillB 2 s a) (fun s a h => by simp at h; exact ⟨cleanB_clean h.1, stillB_ok h.2⟩)
    (a := false) (e := true) (l := [.on 1 (.call (.sigWatch 1)), .on 1 (.call .start), .on 2 (.call (.sigWatch 2)), .on 2 (.call (.sigWait MAX)), .on 1 (.call .yield), .til (fun s => s.main == .ev && s.sco.cur == none), .raw (.signal 1), .raw (.signal 2)])
    (p := fun s => decide ((s.sco.cur = none ∧ s.main = .sig ∧ s.dead = false ∧ s.fault = false) ∧ delivered 2 s.log < arrived 2 s.log ∧
      (2 ∈ s.sco.paused ∧ ¬ Node.co 2 ∈ s.lists .resumers) ∧ pending 2 s.log = some (.sigWait MAX) ∧ watches 2 2 s.log = true ∧ ((step s .tau).map (fun t => t.log == s.log) = some true))) (by decide +kernel)
  obtain ⟨h1, h2, h3, h4, h5, h6⟩ := of_decide_eq_true hp
  cases hs : step s .tau with
  | none => rw [hs] at h6; cases h6
  | some s' =>
    rw [hs] at h6; simp at h6
    obtain ⟨k, hk⟩ := h s s' 2 2 MAX r h1 h2 h3 h4 h5 hs
    rw [h6] at hk
    exact absurd (congrArg List.length hk) (by simp)

/-- **False of the code**: a signal handed to a coroutine whose deadline passed meanwhile is lost: the call returns `NECO_TIMEDOUT` -/
theorem C34_told_not_general : ¬ ∀ (s : S) (i n : Nat) (dl v : Int) (d : Msg), Reach Clean s → Returns s i (.sigWait dl) v d → .sigTo n i ∈ since i s.log → v = n := by
  intro h
  obtain ⟨s, r, hp⟩ := scriptC [.on 1 (.call (.sigWatch 2)), .on 1 (.call (.sigWait 1000)), .til (fun s => s.main == .ev && s.sco.cur == none), .raw (.clock 1001), .raw (.signal 2)]
    (p := fun s => returnsB s 1 (.sigWait 1000) TIMEDOUT 0 && decide (.sigTo 2 1 ∈ since 1 s.log)) (by decide +kernel)
  simp only [Bool.and_eq_true] at hp
  have := h s 1 2 1000 TIMEDOUT 0 r (returnsB_iff.mp hp.1) (of_decide_eq_true hp.2)
  exact absurd this (by decide)

/-- **False of the code** if stale wake-ups happen: `neco_signal_wait` returns 4 although no signal was handed to it -/
theorem C34_result_not_general : ¬ ∀ (s : S) (i : Nat) (dl v : Int) (d : Msg), Reach any s → Returns s i (.sigWait dl) v d → 0 ≤ v → .sigTo v.toNat i ∈ since i s.log := by
  intro h
  obtain ⟨s, r, hp⟩ := scriptA [.on 1 (.call .start), .on 2 (.call (.sigWatch 2)), .on 2 (.call .work), .raw (.submit true), .on 1 (.call (.cancel 2 MAX)), .on 2 (.call (.sigWait MAX)), .on 2 (.call (.sigWait MAX)), .on 1 (.call .getid), .raw (.wdone 2), .on 1 (.call .start), .on 3 (.call .work), .raw (.submit true)]
    (p := fun s => returnsB s 2 (.sigWait MAX) 4 0 && decide (.sigTo 4 2 ∉ since 2 s.log)) (by decide +kernel)
  simp only [Bool.and_eq_true] at hp
  exact of_decide_eq_true hp.2 (h s 2 MAX 4 0 r (returnsB_iff.mp hp.1) (by decide))

end Neco.Rt
