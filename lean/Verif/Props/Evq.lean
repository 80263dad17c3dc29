import Verif.Proof.Evq
/-!
# A coroutine that waits for a descriptor goes on once the descriptor is ready (C80)
-/
namespace Neco.Evq

/-- Whoever waits for a descriptor and has not been made ready is looked after: the queue that the main loop asks has been told to report the file in the direction waited for.
(Partial: as long as the conditions of `Fit` hold; each is needed, see below.) -/
theorem C80_asked_partial {s : S} (r : Reach Fit s) {w : Waiter} (h : Sleeps s w) : Asked s w := (reach_invF r).asked w h

/-- When the file is in the state waited for, the next event step makes the coroutine ready, unless the system used up its 16 reports for others. -/
theorem C80_wakes_partial {s t : S} (r : Reach Fit s) {w : Waiter} (h : Sleeps s w) (hg : CanGo s w) {es : List Entry} (hs : Step s (.poll es) t) :
    ¬ Asleep t w.co ∨ es.length = 16 := by
  have va := reach_invA r
  obtain ⟨l, hl, e, he, h1, h2, h3⟩ := (reach_invF r).asked w h
  cases hs with
  | poll _ hne hp =>
    unfold poll at hp
    rw [hl] at hp
    simp only at hp
    split at hp
    · rename_i hr
      cases hp
      rcases hr.2.2.2 with h16 | hall
      · exact .inr h16
      · left
        intro ⟨u, hu, hc⟩
        have hd : (e.report s).dir w.wr = true := by
          unfold CanGo Ready.dir at hg
          unfold Ready.dir Entry.report
          rw [h2]
          cases hw : w.wr <;> simp [hw] at hg h3 ⊢ <;> exact ⟨h3, hg⟩
        have hh : e.hot s = true := by
          unfold Entry.hot
          unfold Ready.dir at hd
          split at hd <;> simp [hd]
        rcases mem_handleAll hu.1 with ⟨h4, h5⟩ | ⟨v, _, _, _, _, _, _, h6⟩
        · have := co_inj va h4 h.1 hc
          subst this
          exact h5 e (hall e he hh) ⟨h.2, h1.symm, hd⟩
        · have := hu.2; rw [h6] at this; cases this
    · cases hp

/-- The condition of `Fit` on reports is met, and so the two theorems above hold, if each descriptor is waited for in one direction at a time and errors are reported together with readiness. -/
theorem C80_oneway_partial {s : S} (r : Reach OneWay s) : Reach Fit s := (reach_oneWay r).1

/-- In every execution, a coroutine made ready by an event had its turn because a file registered under the number it waits for was, at that moment, in the state it waits for. -/
theorem C80_ready {ok} {s t : S} (_ : Reach ok s) {es : List Entry} (hs : Step s (.poll es) t) {w : Waiter} (h : w ∈ t.wait) (hn : w ∉ s.wait) :
    ∃ f, w.wake = .event f ∧ (s.rdy f).dir w.wr = true ∧ Asleep s w.co ∧ ∃ e ∈ es, e.fd = w.fd ∧ e.file = f := by
  cases hs with
  | poll _ hne hp =>
    unfold poll at hp
    split at hp
    · cases hp; exact absurd h hn
    · split at hp
      · cases hp
        rcases mem_handleAll h with ⟨h1, _⟩ | ⟨v, h1, e, h2, h3, h4, h5, rfl⟩
        · exact absurd h1 hn
        · refine ⟨e.file, rfl, ?_, ⟨v, ⟨h1, h3⟩, rfl⟩, e, h2, h4.symm, rfl⟩
          unfold Ready.dir Entry.report at h5
          unfold Ready.dir
          split at h5 <;> rename_i hc
          · simp only [Bool.and_eq_true] at h5; simp only; rw [if_pos hc]; exact h5.2
          · simp only [Bool.and_eq_true] at h5; simp only; rw [if_neg hc]; exact h5.2
      · cases hp

/-- That file is the one the coroutine named. (Partial: if the program does not duplicate descriptors and does not close one that somebody waits for; `C80_dup` and `C80_reused` show that both are needed.) -/
theorem C80_own_partial {s t : S} (r : Reach Tidy s) {es : List Entry} (hs : Step s (.poll es) t) {w : Waiter} (h : w ∈ t.wait) (hn : w ∉ s.wait) :
    w.wake = .event w.file ∧ CanGo s w ∧ s.file w.fd = some w.file := by
  have vd := reach_invD (r.weak (ok' := NoDup) (fun s a ho => by cases a <;> first | trivial | exact ho))
  have vt := reach_tidy r
  obtain ⟨f, h1, h2, ⟨u, hu, hc⟩, e, he, h3, h4⟩ := C80_ready r hs h hn
  have r' : Reach any t := .step (r.weak (fun _ _ _ => trivial)) trivial hs
  cases hs with
  | poll _ hne hp =>
    unfold poll at hp
    split at hp
    · cases hp; exact absurd h hn
    · rename_i l hl
      split at hp
      · rename_i hr
        cases hp
        rcases mem_handleAll h with ⟨h5, _⟩ | ⟨v, h5, e', h6, _, h8, _, h9⟩
        · exact absurd h5 hn
        · have hv := vt v h5
          have h10 := vd.ent _ l hl e (hr.2.1 e he).1
          have hfd : v.fd = w.fd := by rw [h9]
          have hfl : v.file = w.file := by rw [h9]
          rw [h3, h4, ← hfd, hv] at h10
          cases h10
          rw [hfl] at h1 h2 hv
          rw [hfd] at hv
          exact ⟨h1, h2, hv⟩
      · cases hp

/-- A call on what is no descriptor, or on a file that cannot be polled, or when the system cannot make a queue, returns -1 at once; nobody else notices. -/
theorem C80_refused {ok} {s t : S} (r : Reach ok s) {i fd : Nat} {wr : Bool} {mk : Option Nat} {full : Bool} (hs : Step s (.wait i fd wr mk full) t)
    (h : (∀ f, s.file fd = some f → s.can f = false) ∨ (s.qfd = 0 ∧ mk = none)) : t.log = (i, true) :: s.log ∧ t.wait = s.wait := by
  have va := reach_invA r
  cases hs with
  | wait _ _ _ =>
    unfold wait
    split
    · exact ⟨rfl, rfl⟩
    · rename_i u hu
      obtain ⟨e1, _, e2, e3, _, e4, _⟩ := va.queue hu
      have hx : ∀ f, s.file fd = some f → s.can f = false := by
        rcases h with h | ⟨h, h'⟩
        · exact h
        · unfold queue at hu; rw [if_pos h, h'] at hu; cases hu
      split
      · rename_i l f hl hf
        rw [if_pos (.inl (by rw [e3]; exact hx f (e2 ▸ hf)))]
        exact ⟨by rw [e4], e1⟩
      · exact ⟨by rw [e4], e1⟩

/-- Any other call waits, unless the system has no room for the registration. -/
theorem C80_accepted {ok} {s t : S} (r : Reach ok s) {i fd f : Nat} {wr : Bool} {mk : Option Nat} (hs : Step s (.wait i fd wr mk false) t)
    (hf : s.file fd = some f) (hc : s.can f = true) (hm : s.qfd = 0 → mk ≠ none) : t.log = s.log ∧ Sleeps t ⟨i, fd, wr, f, .asleep⟩ ∧ Asked t ⟨i, fd, wr, f, .asleep⟩ := by
  have va := reach_invA r
  cases hs with
  | wait _ _ _ =>
    unfold wait
    split
    · rename_i hq
      exfalso
      unfold queue at hq
      split at hq
      · rename_i h0
        cases mk with
        | none => exact hm h0 rfl
        | some k => cases hq
      · cases hq
    · rename_i u hu
      obtain ⟨_, _, e2, e3, _, e4, l, hl⟩ := va.queue hu
      rw [hl, e2, hf]
      simp only
      rw [if_neg (by rw [e3, hc]; simp)]
      exact ⟨e4, ⟨List.mem_cons_self, rfl⟩, _, if_pos rfl, _, ctl_mem, ask_key.1, ask_key.2, ask_self⟩

/-- In every execution the event step finds its queue: the program is not ended by `must`. -/
theorem C80_alive {s : S} (r : Reach any s) : s.dead = false := (reach_invA r).alive

/-- There is at most one queue at a time, and it is only given back while nobody waits. (Partial: if descriptor 0 is never given out for it.) -/
theorem C80_queue_partial {s : S} (r : Reach NotZero s) : (∀ k l, s.q k = some l → k = s.qfd ∧ k ≠ 0) ∧ (s.wait ≠ [] → ∃ l, s.q s.qfd = some l) :=
  ⟨reach_one r, (reach_invA r).has⟩

/-! ## concrete executions -/

theorem poll_of {s : S} {l es : List Entry} (hl : s.q s.qfd = some l) (hr : mayReport s l es) : poll s es = some { setq s s.qfd (some (disarm es l)) with wait := handleAll s es s.wait } := by
  unfold poll; rw [hl]; simp only; rw [if_pos hr]

/-- 1 waits to read from file 7, which is descriptor 3; the queue is descriptor 5 -/
theorem one_waits {ok : S → Act → Prop} (h1 : ok init (.opens 3 7 true))
    (h2 : ∀ s, ok s (.wait 1 3 false (some 5) false)) :
    ∃ s, Reach ok s ∧ s = wait { file := fun k => if k = 3 then some 7 else none, can := fun k => if k = 7 then true else false } 1 3 false (some 5) false := by
  refine ⟨_, .step (.step .init h1 (.opens rfl rfl (by simp [init]) (by simp [init]) (by simp [init]))) (h2 _) (.wait rfl (by simp [init]) ?_), rfl⟩
  intro k hk; cases hk; rfl

example : ∃ s w es t, Reach Fit s ∧ Sleeps s w ∧ CanGo s w ∧ Step s (.poll es) t ∧ es.length ≠ 16 := by
  obtain ⟨s, r, rfl⟩ := one_waits (ok := Fit) trivial (fun _ => by simp [Fit])
  refine ⟨_, ⟨1, 3, false, 7, .asleep⟩, [⟨3, 7, true, false⟩], _, .step (a := .ready 7 { inn := true }) r trivial (.ready rfl), ⟨List.mem_cons_self, rfl⟩, rfl,
    .poll rfl (List.cons_ne_nil _ _) (poll_of rfl (by decide +kernel)), by decide⟩

example : ∃ s t, Reach OneWay s ∧ Sleeps s ⟨1, 3, false, 7, .asleep⟩ ∧ OneWay s (.poll [⟨3, 7, true, false⟩]) ∧ Step s (.poll [⟨3, 7, true, false⟩]) t ∧ ¬ Asleep t 1 := by
  have r' : Reach OneWay (wait { file := fun k => if k = 3 then some 7 else none, can := fun k => if k = 7 then true else false } 1 3 false (some 5) false) := by
    refine .step (a := .wait 1 3 false (some 5) false) (.step (a := .opens 3 7 true) .init trivial (.opens rfl rfl (by simp [init]) (by simp [init]) (by simp [init]))) ?_
      (.wait rfl (by simp [init]) (by intro k hk; cases hk; rfl))
    exact ⟨by decide, fun w hw => by cases hw⟩
  refine ⟨_, _, .step (a := .ready 7 { inn := true }) r' trivial (.ready rfl), ⟨List.mem_cons_self, rfl⟩, ?_, .poll rfl (List.cons_ne_nil _ _) (poll_of rfl (by decide +kernel)), ?_⟩
  · intro e he
    simp at he; subst he; exact .inl rfl
  · rintro ⟨w, hw, _⟩
    have h1 : w ∈ [(⟨1, 3, false, 7, .event 7⟩ : Waiter)] := hw.1
    simp at h1
    have := hw.2; rw [h1] at this; cases this

example : ∃ s t es w, Reach Tidy s ∧ Step s (.poll es) t ∧ w ∈ t.wait ∧ w ∉ s.wait := by
  obtain ⟨s, r, rfl⟩ := one_waits (ok := Tidy) trivial (fun _ => trivial)
  refine ⟨_, _, [⟨3, 7, true, false⟩], ⟨1, 3, false, 7, .event 7⟩, .step (a := .ready 7 { inn := true }) r trivial (.ready rfl),
    .poll rfl (List.cons_ne_nil _ _) (poll_of rfl (by decide +kernel)), List.mem_cons_self, by decide⟩

example : ∃ s t, Reach any s ∧ Step s (.wait 2 4 true none false) t ∧ (∀ f, s.file 4 = some f → s.can f = false) := by
  obtain ⟨s, r, rfl⟩ := one_waits (ok := any) trivial (fun _ => trivial)
  exact ⟨_, _, r, .wait rfl (by decide) (by simp), by intro f hf; cases hf⟩

example : ∃ s t, Reach any s ∧ Step s (.wait 2 3 true none false) t ∧ s.file 3 = some 7 ∧ s.can 7 = true ∧ (s.qfd = 0 → (none : Option Nat) ≠ none) := by
  obtain ⟨s, r, rfl⟩ := one_waits (ok := any) trivial (fun _ => trivial)
  exact ⟨_, _, r, .wait rfl (by decide) (by simp), rfl, rfl, fun h => by cases h⟩

/-! ## what is false of the code -/

/-- **False of the code**: a coroutine is told when the descriptor it waits for is closed. Once the last descriptor of the file is closed no event ever makes the coroutine ready; it sleeps until it is canceled, its
deadline passes or somebody waits on the same number again. -/
theorem C80_closed {s s1 s2 : S} (r : Reach NoDup s) {w : Waiter} (h : Sleeps s w) (hs : Step s (.close w.fd true) s1) (hl : Leads (Apart w.co w.fd) s1 s2) : Sleeps s2 w := by
  have vd := reach_invD r
  have g : Gone w.co w.fd w s1 := by
    cases hs with
    | @close _ f _ _ hf _ =>
      refine ⟨h, fun k l hk e he => ?_⟩
      simp only [close, if_true, Option.map_eq_some_iff] at hk
      obtain ⟨m, hm, rfl⟩ := hk
      obtain ⟨he1, he2⟩ := List.mem_filter.mp he
      have h1 := vd.ent k m hm e he1
      intro hx
      rw [hx, hf] at h1
      cases h1
      simp at he2
  have r1 : Reach any s1 := .step (r.weak (fun _ _ _ => trivial)) trivial hs
  have : Gone w.co w.fd w s2 ∧ Reach any s2 := by
    clear hs h
    induction hl with
    | refl => exact ⟨g, r1⟩
    | step _ ho hs ih => exact ⟨gone_step rfl rfl ih.1 ho (reach_invA ih.2) hs, .step ih.2 trivial hs⟩
  exact this.1.sleeps

example : ∃ s s1 s2 w, Reach NoDup s ∧ Sleeps s w ∧ Step s (.close w.fd true) s1 ∧ Leads (Apart w.co w.fd) s1 s2 ∧ CanGo s2 w ∧ ∃ es t, Step s2 (.poll es) t := by
  obtain ⟨s, r, rfl⟩ := one_waits (ok := NoDup) trivial (fun _ => trivial)
  refine ⟨_, _, _, ⟨1, 3, false, 7, .asleep⟩, r, ⟨List.mem_cons_self, rfl⟩, .close (f := 7) rfl rfl ⟨fun _ k hk h => ?_, fun _ => rfl⟩,
    .step (a := .ready 7 { inn := true }) .refl trivial (.ready rfl), rfl, [], _, .poll rfl (List.cons_ne_nil _ _) (poll_of rfl (by decide +kernel))⟩
  simp [wait, queue, setq, ctl] at h
  exact hk h

/-- **False of the code**, without the condition on descriptor 0 of `Fit`: if the program has closed its standard input, the first queue gets descriptor 0, which the code takes for "no queue"; the next
call makes another queue, and who waits in the first is not looked after any more. -/
theorem C80_zero : ∃ s w, Reach (fun s a => match a with | .wait _ _ _ _ _ => True | a => Fit s a) s ∧ Sleeps s w ∧ CanGo s w ∧ ¬ Asked s w := by
  refine ⟨_, ⟨1, 3, false, 7, .asleep⟩, .step (a := .ready 7 { inn := true }) (.step (a := .wait 2 4 false (some 5) false) (.step (a := .opens 4 8 true) (.step (a := .wait 1 3 false (some 0) false)
    (.step (a := .opens 3 7 true) .init trivial (.opens rfl rfl (by simp [init]) (by simp [init]) (by simp [init])))
    trivial (.wait rfl (by simp [init]) (by intro k hk; cases hk; rfl))) trivial (.opens rfl rfl ?_ ?_ ?_)) trivial (.wait rfl ?_ ?_)) trivial (.ready rfl), ?_, rfl, ?_⟩
  · intro k h; simp [wait, queue, setq, init] at h
  · intro k l hk e he
    by_cases h0 : k = 0
    · subst h0
      change some [(⟨3, 7, true, false⟩ : Entry)] = some l at hk
      cases hk
      simp at he; rw [he]; decide
    · simp [wait, queue, setq, init, h0] at hk
  · decide
  · decide
  · intro k hk; cases hk; rfl
  · exact ⟨List.mem_cons_of_mem _ List.mem_cons_self, rfl⟩
  · rintro ⟨l, hl, e, he, h1, h2, _⟩
    change some _ = some l at hl
    cases hl
    simp [ctl, ask, evexists, init, wait, queue, setq] at he
    rw [he] at h1; cases h1

/-- **False of the code**, without the condition on reports of `Fit`: a report that a descriptor is readable takes away the registration of the coroutine that waits to write on it. -/
theorem C80_both : ∃ s w, Reach (fun s a => match a with | .poll _ => True | a => Fit s a) s ∧ Sleeps s w ∧ CanGo s w ∧ ¬ Asked s w := by
  obtain ⟨s, r, rfl⟩ := one_waits (ok := fun s a => match a with | .poll _ => True | a => Fit s a) trivial (fun _ => by simp [Fit])
  refine ⟨_, ⟨2, 3, true, 7, .asleep⟩, .step (a := .ready 7 { out := true }) (.step (a := .poll [⟨3, 7, true, true⟩]) (.step (a := .ready 7 { inn := true })
    (.step (a := .wait 2 3 true none false) r (by simp [Fit]) (.wait rfl (by decide) (by simp))) trivial (.ready rfl)) trivial
    (.poll rfl (List.cons_ne_nil _ _) (poll_of rfl (by decide +kernel)))) trivial (.ready rfl), ⟨List.mem_cons_self, rfl⟩, rfl, ?_⟩
  rintro ⟨l, hl, e, he, _, _, h3⟩
  cases hl
  simp [ctl, ask, evexists, disarm, wait, queue, setq, Entry.is] at he
  rw [he] at h3; cases h3

/-- **False of the code**: so does a report of an error alone, which makes nobody ready. -/
theorem C80_error : ∃ s w, Reach (fun s a => match a with | .poll _ => True | a => Fit s a) s ∧ Sleeps s w ∧ CanGo s w ∧ ¬ Asked s w ∧ s.wait = [w] := by
  obtain ⟨s, r, rfl⟩ := one_waits (ok := fun s a => match a with | .poll _ => True | a => Fit s a) trivial (fun _ => by simp [Fit])
  refine ⟨_, ⟨1, 3, false, 7, .asleep⟩, .step (a := .ready 7 { inn := true, err := true }) (.step (a := .poll [⟨3, 7, true, false⟩]) (.step (a := .ready 7 { err := true })
    r trivial (.ready rfl)) trivial (.poll rfl (List.cons_ne_nil _ _) (poll_of rfl (by decide +kernel)))) trivial (.ready rfl), ⟨List.mem_cons_self, rfl⟩, rfl, ?_, rfl⟩
  rintro ⟨l, hl, e, he, _, _, h3⟩
  cases hl
  simp [ctl, ask, evexists, disarm, wait, queue, setq, Entry.is] at he
  rw [he] at h3; cases h3

/-- what a state of the examples looks like after the program has opened another file -/
theorem opens_of {s : S} {fd f : Nat} (ha : s.dead = false) (hf : free s fd = true) (h1 : ∀ k, s.file k ≠ some f) {l : List Entry} {j : Nat} (h2 : ∀ k, k ≠ j → s.q k = none) (h3 : s.q j = some l)
    (h4 : ∀ e ∈ l, e.file ≠ f) (h5 : ∀ w ∈ s.wait, w.file ≠ f) :
    Step s (.opens fd f true) { s with file := fun k => if k = fd then some f else s.file k, can := fun k => if k = f then true else s.can k } := by
  refine .opens ha hf h1 (fun k m hk e he => ?_) h5
  by_cases hj : k = j
  · rw [hj, h3] at hk; cases hk; exact h4 e he
  · rw [h2 k hj] at hk; cases hk

/-- **False of the code**: a coroutine made ready by an event waits for the file that had the event. After a descriptor was duplicated and closed the system goes on reporting the old file under the old number; the coroutine that waits for the
new file of that number is made ready although there is nothing to read for it. -/
theorem C80_dup : ∃ s t es w, Reach (fun s a => match a with | .dup _ _ => True | a => Tidy s a) s ∧ Step s (.poll es) t ∧ w ∈ t.wait ∧ w ∉ s.wait ∧ ¬ CanGo s w := by
  obtain ⟨s, r, rfl⟩ := one_waits (ok := fun s a => match a with | .dup _ _ => True | a => Tidy s a) trivial (fun _ => trivial)
  refine ⟨_, _, [⟨3, 7, true, false⟩], ⟨2, 3, false, 8, .event 7⟩,
    .step (a := .ready 7 { inn := true }) (.step (a := .wait 2 3 false none false) (.step (a := .opens 3 8 true) (.step (a := .close 3 false) (.step (a := .dup 3 4) (.step (a := .run 1) (.step (a := .other 1) r trivial (.other rfl)) trivial
      (.run rfl ⟨_, List.mem_cons_self, rfl, by decide⟩)) trivial (.dup (f := 7) rfl rfl rfl))
      (fun w hw => by cases hw) (.close (f := 7) rfl rfl ⟨fun h => (nomatch h), fun h => absurd rfl (h 4 (by decide))⟩)) trivial
      (opens_of (j := 5) (l := [⟨3, 7, true, false⟩]) rfl rfl ?_ ?_ rfl (by decide) (fun w hw => by cases hw))) trivial (.wait rfl (fun w hw => by cases hw) (by simp))) trivial (.ready rfl),
    .poll rfl (List.cons_ne_nil _ _) (poll_of rfl (by decide +kernel)), List.mem_cons_self, by decide, fun h => Bool.noConfusion (show false = true from h)⟩
  · intro k h
    simp only [close] at h
    split at h
    · cases h
    · split at h
      · cases h
      · change (if k = 3 then some 7 else none) = some 8 at h
        split at h <;> cases h
  · intro k hk
    change (if k = 5 then some _ else if k = 5 then some _ else none) = none
    rw [if_neg hk, if_neg hk]

/-- **False of the code**: the same happens when a descriptor is closed while a coroutine waits for it and its number is used again. -/
theorem C80_reused : ∃ s t es w, Reach NoDup s ∧ Step s (.poll es) t ∧ w ∈ t.wait ∧ w ∉ s.wait ∧ ¬ CanGo s w := by
  obtain ⟨s, r, rfl⟩ := one_waits (ok := NoDup) trivial (fun _ => trivial)
  refine ⟨_, _, [⟨3, 8, true, false⟩], ⟨1, 3, false, 7, .event 8⟩,
    .step (a := .ready 8 { inn := true }) (.step (a := .wait 2 3 false none false) (.step (a := .opens 3 8 true) (.step (a := .close 3 true) r trivial
      (.close (f := 7) rfl rfl ⟨fun _ k hk h => ?_, fun _ => rfl⟩)) trivial
      (opens_of (j := 5) (l := []) rfl rfl ?_ ?_ rfl (by decide) (by decide))) trivial (.wait rfl (by decide) (by simp))) trivial (.ready rfl),
    .poll rfl (List.cons_ne_nil _ _) (poll_of rfl (by decide +kernel)), List.mem_cons_of_mem _ List.mem_cons_self, by decide, fun h => Bool.noConfusion (show false = true from h)⟩
  · change (if k = 3 then some 7 else none) = some 7 at h
    rw [if_neg hk] at h; cases h
  · intro k h
    change (if k = 3 then none else if k = 3 then some 7 else none) = some 8 at h
    split at h <;> cases h
  · intro k hk
    change (if k = 5 then some _ else if k = 5 then some _ else none : Option (List Entry)).map _ = none
    rw [if_neg hk, if_neg hk]; rfl

end Neco.Evq
