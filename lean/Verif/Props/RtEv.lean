import Verif.Proof.RtEv
import Verif.Props.RtEx
/-!
# Background work and descriptors (C35, C53)
-/
namespace Neco.Rt
open Neco.Err

/-! ## C35 `neco_work` returns after the work is done -/

/-- `neco_work` returns only after the work was done.  (Partial: unless the coroutine was canceled meanwhile, see `C35_not_general`; and provided no stale wake-up is pending at the call.) -/
theorem C35_partial {s : S} {i : Nat} (f : Fresh i s) {v : Int} {d : Msg} (h : Returns s i .work v d) (hc : ∀ k, .cancel k i ∉ since i s.log) : .wdone i ∈ since i s.log := by
  have r := f.reach
  have hk := (returns_ok f h).2.2
  unfold CallOk at hk
  rcases hk (returns_codes r h) with h1 | ⟨k, h1⟩
  · exact mem_sn h1
  · exact absurd (mem_sn h1) (hc k)

def wkSome : List Sc := [.on 1 (.call .work), .raw (.submit true), .til (fun s => s.main == .io && s.sco.cur == none), .raw (.wdone 1)]
example : ∃ s, Fresh 1 s ∧ Returns s 1 .work OK 0 ∧ (∀ k, .cancel k 1 ∉ since 1 s.log) := by
  obtain ⟨s, r, h⟩ := scriptC wkSome (p := fun s => returnsB s 1 .work OK 0 && (since 1 s.log).all (fun e => match e with | .cancel _ _ => false | _ => true)) (by decide +kernel)
  simp only [Bool.and_eq_true, List.all_eq_true] at h
  exact ⟨s, (returnsB_iff.mp h.1).fresh r, returnsB_iff.mp h.1, fun k hk => by simpa using h.2 _ hk⟩

/-- **False of the code**: a coroutine that is canceled inside `neco_work` returns before its work is done -/
theorem C35_not_general : ¬ ∀ (s : S) (i : Nat) (v : Int) (d : Msg), Reach Clean s → Returns s i .work v d → .wdone i ∈ since i s.log := by
  intro h
  obtain ⟨s, r, hp⟩ := scriptC [.on 1 (.call .start), .on 2 (.call .work), .raw (.submit true), .on 1 (.call (.cancel 2 MAX))]
    (p := fun s => returnsB s 2 .work OK 0 && decide (.wdone 2 ∉ since 2 s.log)) (by decide +kernel)
  simp only [Bool.and_eq_true] at hp
  exact of_decide_eq_true hp.2 (h s 2 OK 0 r (returnsB_iff.mp hp.1))

/-! ## C53 descriptor waiters are woken by the matching event -/

/-- the system reported descriptor `fd` ready for reading (`w = false`) or writing (`w = true`) -/
def Reported (evs : List (Nat × Bool × Bool)) (fd : Nat) (w : Bool) : Prop := ∃ e ∈ evs, e.1 = fd ∧ (if w = true then e.2.2 else e.2.1) = true

/-- the system is asked to report when descriptor `fd` becomes readable (`w = false`) or writable (`w = true`) -/
def Asked (s : S) (fd : Nat) (w : Bool) : Prop := (if w = true then (s.armed fd).2 else (s.armed fd).1) = true

/-- when events are reported, exactly those coroutines are made ready which wait for a reported descriptor in a reported direction -/
theorem C53_wakes {ok} {s s' : S} (r : Reach ok s) {evs : List (Nat × Bool × Bool)} (hs : step s (.events evs) = some s') {j : Nat} (hb : Blocked s j) :
    ¬ Blocked s' j ↔ ∃ fd w dl, pending j s.log = some (.wait fd w dl) ∧ Reported evs fd w := by
  have hf : s.fault = false := by
    unfold step at hs
    split at hs
    · cases hs
    · rename_i h; simp only [not_or] at h; simpa using h.2.1
  unfold step at hs
  split at hs
  · cases hs
  simp only at hs
  split at hs <;> cases hs
  unfold Blocked at *
  simp only
  by_cases hn : s.nevwaiters > 0
  · rw [if_pos hn, mem_mEvents, not_and]
    constructor
    · intro h
      obtain ⟨e, he, w, h1, h2⟩ := Classical.not_not.mp (h hb)
      obtain ⟨dl, hp⟩ := in_wait r h1
      exact ⟨e.1, w, dl, hp, e, he, rfl, h2⟩
    · rintro ⟨fd, w, dl, hp, e, he, rfl, h2⟩
      exact fun _ h => h ⟨e, he, w, wait_in r hf hb hp, h2⟩
  · rw [if_neg hn]
    refine ⟨fun h => absurd hb h, ?_⟩
    rintro ⟨fd, w, dl, hp, _⟩
    exact absurd (evw_pos r hf (wait_in r hf hb hp) hb) hn

/-- once a coroutine waits for a descriptor, the system is asked for every direction in which somebody waits for it -/
theorem C53_asked {ok} {s s' : S} (r : Reach ok s) {fd : Nat} {w : Bool} {dl : Int} (hs : step s (.call (.wait fd w dl)) = some s') {j : Nat} {w' : Bool} {dl' : Int}
    (hb : Blocked s' j) (hp : pending j s'.log = some (.wait fd w' dl')) (hok : ok s (.call (.wait fd w dl))) : Asked s' fd w' := by
  have hf : s'.fault = false := by
    unfold step at hs
    split at hs
    · cases hs
    rename_i h; simp only [not_or] at h
    simp only at hs
    (repeat' split at hs) <;> cases hs
    simpa [doCall, doWait] using h.2.1
  have hin := wait_in (r.step _ hok hs) hf hb hp
  unfold step at hs
  split at hs
  · cases hs
  simp only at hs
  (repeat' split at hs) <;> cases hs
  rename_i i hc _
  simp only [doCall, doWait, copause_evw, mem_evInsert] at hin
  simp only [Asked, doCall, doWait, copause_armed, if_true]
  have hin : w' = w ∨ (fd, w', j) ∈ s.evw := by
    rcases hin with hin | hin
    · cases hin; exact .inl rfl
    · exact .inr (by simpa using hin)
  cases w <;> cases w' <;> simp at hin ⊢ <;> (simp only [evHas, upd_evw, note_evw, List.any_eq_true]; exact ⟨_, hin, by simp⟩)

/-- and for no other direction; what it is asked about other descriptors stays as it is -/
theorem C53_only {ok} {s s' : S} (r : Reach ok s) {fd : Nat} {w : Bool} {dl : Int} (hs : step s (.call (.wait fd w dl)) = some s') :
    (∀ w', Asked s' fd w' → w' = w ∨ ∃ j dl', pending j s.log = some (.wait fd w' dl')) ∧ ∀ fd' ≠ fd, ∀ w', Asked s' fd' w' ↔ Asked s fd' w' := by
  unfold step at hs
  split at hs
  · cases hs
  simp only at hs
  (repeat' split at hs) <;> cases hs
  simp only [Asked, doCall, doWait, copause_armed, if_true]
  constructor
  · intro w' h
    have key : w' ≠ w → ∃ j, (fd, w', j) ∈ s.evw := by
      intro hne
      cases w <;> cases w' <;> simp at hne h ⊢ <;> (simp only [evHas, upd_evw, note_evw, List.any_eq_true] at h; obtain ⟨⟨f, b, j⟩, h1, h2⟩ := h; simp at h2; obtain ⟨rfl, rfl⟩ := h2; exact ⟨j, h1⟩)
    by_cases hw : w' = w
    · exact .inl hw
    · obtain ⟨j, hj⟩ := key hw
      obtain ⟨dl', hp⟩ := in_wait r hj
      exact .inr ⟨j, dl', hp⟩
  · intro fd' hne w'
    simp [hne]

/-- the system goes on being asked for a direction in which a coroutine waits until an event is reported for the descriptor.
(Partial: it should go on being asked until that direction is reported, see `C53_kept_not_general`.) -/
theorem C53_kept_partial {ok} {s s' : S} (r : Reach ok s) {a : Act} (hok : ok s a) (hs : step s a = some s') {j fd : Nat} {w : Bool} {dl : Int}
    (hp : pending j s'.log = some (.wait fd w dl)) (hb : Blocked s' j) (h : Asked s fd w) (he : ∀ evs, a = .events evs → ∀ e ∈ evs, e.1 ≠ fd) : Asked s' fd w := by
  by_cases h1 : ∃ fd' w' dl', a = .call (.wait fd' w' dl')
  · obtain ⟨fd', w', dl', rfl⟩ := h1
    by_cases hfd : fd' = fd
    · subst hfd; exact C53_asked r hs hb hp hok
    · unfold step at hs
      split at hs
      · cases hs
      simp only at hs
      (repeat' split at hs) <;> cases hs
      simp only [Asked, doCall, doWait, copause_armed, if_neg (fun h => hfd (Eq.symm h))]
      exact h
  · by_cases h2 : ∃ evs, a = .events evs
    · obtain ⟨evs, rfl⟩ := h2
      have he := he evs rfl
      unfold step at hs
      split at hs
      · cases hs
      simp only at hs
      split at hs <;> cases hs
      unfold Asked at *
      have : (if s.nevwaiters > 0 then mEvents s evs else s).armed fd = s.armed fd := by
        split
        · exact mEvents_armed he
        · rfl
      simp only [this]; exact h
    · have := step_armed hs (fun fd w dl e => h1 ⟨fd, w, dl, e⟩) (fun evs e => h2 ⟨evs, e⟩)
      unfold Asked at *; rw [this]; exact h

/-- `neco_wait` returns `NECO_OK` only if the system reported the descriptor ready in that direction during the call.
(Partial: for a call made with no wake-up left over, see `C53_ok_not_general`.) -/
theorem C53_ok_partial {s : S} {i fd : Nat} (f : Fresh i s) {w : Bool} {dl : Int} {d : Msg} (h : Returns s i (.wait fd w dl) OK d) : .ready fd w i ∈ since i s.log := by
  have r := f.reach
  have hk := (returns_ok f h).2.2
  unfold CallOk at hk
  exact mem_sn (hk rfl)

/-- a `ready` event is only recorded for a reported direction -/
theorem C53_ready {ok} {s s' : S} (_ : Reach ok s) {a : Act} (hs : step s a = some s') {fd : Nat} {w : Bool} {i : Nat} (h : .ready fd w i ∈ s'.log) :
    .ready fd w i ∈ s.log ∨ ∃ evs, a = .events evs ∧ Reported evs fd w := by
  by_cases ha : ∃ evs, a = .events evs
  · obtain ⟨evs, rfl⟩ := ha
    unfold step at hs
    split at hs
    · cases hs
    simp only at hs
    split at hs <;> cases hs
    simp only at h
    split at h
    · rcases mEvents_ready h with h | ⟨e, h1, h2, h3⟩
      · exact .inl h
      · exact .inr ⟨evs, rfl, e, h1, h2, h3⟩
    · exact .inl h
  · obtain ⟨es, h1, h2⟩ := step_adds hs
    rw [h1] at h
    rcases List.mem_append.mp h with h | h
    · exfalso
      have := h2 _ h
      cases a with
      | events evs => exact ha ⟨evs, rfl⟩
      | call c => cases c <;> simp [stepKinds, callKinds, Ev.kind] at this
      | tau =>
        simp only [stepKinds] at this
        split at this
        · rename_i i _
          cases hp : (s.co i).pc <;> rw [hp] at this <;> simp [pcKinds, Ev.kind] at this
          rename_i b; cases b <;> simp at this
        · cases hm : s.main <;> rw [hm] at this <;> simp [mainKinds, Ev.kind] at this
      | _ => simp [stepKinds, Ev.kind] at this
    · exact .inl h

/-- 2 and 3 wait to read, 4 to write descriptor 7 -/
def evSome : List Sc := [.on 1 (.call .start), .on 2 (.call (.wait 7 false MAX)), .on 1 (.call .start), .on 3 (.call (.wait 7 false MAX)), .on 1 (.call .start), .on 4 (.call (.wait 7 true MAX)),
  .on 1 (.call .yield), .til (fun s => s.main == .ev && s.sco.cur == none)]
example : ∃ s s', Reach Clean s ∧ step s (.events [(7, true, false)]) = some s' ∧ Blocked s 2 ∧ Blocked s 3 ∧ Blocked s 4 ∧ ¬ Blocked s' 2 ∧ ¬ Blocked s' 3 ∧ Blocked s' 4 ∧ Asked s 7 true ∧ Asked s 7 false := by
  obtain ⟨s, r, h⟩ := scriptC evSome (p := fun s => decide (2 ∈ s.sco.paused ∧ 3 ∈ s.sco.paused ∧ 4 ∈ s.sco.paused ∧ s.armed 7 = (true, true)) && ((step s (.events [(7, true, false)])).any (fun (s' : S) => decide (2 ∉ s'.sco.paused ∧ 3 ∉ s'.sco.paused ∧ 4 ∈ s'.sco.paused)))) (by decide +kernel)
  simp only [Bool.and_eq_true, Option.any_eq_true] at h
  obtain ⟨h1, s', h2, h3⟩ := h
  have h1 := of_decide_eq_true h1
  have h3 := of_decide_eq_true h3
  exact ⟨s, s', r, h2, h1.1, h1.2.1, h1.2.2.1, h3.1, h3.2.1, h3.2.2, by simp [Asked, h1.2.2.2], by simp [Asked, h1.2.2.2]⟩
example : ∃ s, Fresh 2 s ∧ Returns s 2 (.wait 7 false MAX) OK 0 := retF (evSome ++ [.raw (.events [(7, true, false)])]) (by decide +kernel)

/-- **False of the code**: when a descriptor is reported readable, the system is no longer asked to report that it becomes writable, although a coroutine waits for that -/
theorem C53_kept_not_general : ¬ ∀ (s s' : S) (a : Act) (j fd : Nat) (w : Bool) (dl : Int), Reach Clean s → Clean s a → step s a = some s' → pending j s'.log = some (.wait fd w dl) → Blocked s' j → Asked s fd w →
    (∀ evs, a = .events evs → ¬ Reported evs fd w) → Asked s' fd w := by
  intro h
  obtain ⟨s, r, hp⟩ := scriptC evSome (p := fun s => decide (s.armed 7 = (true, true)) && ((step s (.events [(7, true, false)])).any (fun (s' : S) => decide (4 ∈ s'.sco.paused ∧ pending 4 s'.log = some (.wait 7 true MAX) ∧ s'.armed 7 = (false, false))))) (by decide +kernel)
  simp only [Bool.and_eq_true, Option.any_eq_true] at hp
  obtain ⟨h1, s', h2, h3⟩ := hp
  have h1 := of_decide_eq_true h1
  have h3 := of_decide_eq_true h3
  have := h s s' (.events [(7, true, false)]) 4 7 true MAX r (by intro c i e; cases e) h2 h3.2.1 h3.1 (by simp [Asked, h1]) (by
    rintro evs e ⟨x, hx, h4, h5⟩; cases e; simp at hx; subst hx; simp at h5)
  simp [Asked, h3.2.2] at this

/-- **False of the code**: a hang-up (or error) alone wakes nobody, and the system is no longer asked about the descriptor: the coroutine waits for ever -/
theorem C53_hangup_not_general : ¬ ∀ (s s' : S) (j fd : Nat) (w : Bool) (dl : Int), Reach Clean s → step s (.events [(fd, false, false)]) = some s' → Blocked s j → pending j s.log = some (.wait fd w dl) → ¬ Blocked s' j ∨ Asked s' fd w := by
  intro h
  obtain ⟨s, r, hp⟩ := scriptC evSome (p := fun s => decide (2 ∈ s.sco.paused ∧ pending 2 s.log = some (.wait 7 false MAX)) && ((step s (.events [(7, false, false)])).any (fun (s' : S) => decide (2 ∈ s'.sco.paused ∧ s'.armed 7 = (false, false))))) (by decide +kernel)
  simp only [Bool.and_eq_true, Option.any_eq_true] at hp
  obtain ⟨h1, s', h2, h3⟩ := hp
  have h1 := of_decide_eq_true h1
  have h3 := of_decide_eq_true h3
  rcases h s s' 2 7 false MAX r h2 h1.1 h1.2 with h4 | h4
  · exact h4 h3.1
  · simp [Asked, h3.2] at h4

/-- **False of the code** if stale wake-ups happen: `neco_wait` returns `NECO_OK` although the descriptor was not reported -/
theorem C53_ok_not_general : ¬ ∀ (s : S) (i fd : Nat) (w : Bool) (dl : Int) (d : Msg), Reach any s → Returns s i (.wait fd w dl) OK d → .ready fd w i ∈ since i s.log := by
  intro h
  obtain ⟨s, r, hp⟩ := scriptA (staleWake.map .raw ++ [.on 2 (.call (.wait 7 false MAX))])
    (p := fun s => returnsB s 2 (.wait 7 false MAX) OK 0 && decide (.ready 7 false 2 ∉ since 2 s.log)) (by decide +kernel)
  simp only [Bool.and_eq_true] at hp
  exact of_decide_eq_true hp.2 (h s 2 7 false MAX 0 r (returnsB_iff.mp hp.1))

end Neco.Rt
