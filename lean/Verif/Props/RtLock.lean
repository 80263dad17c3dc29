import Verif.Proof.RtLock3
import Verif.Props.RtEx
/-!
# Mutexes (C21-C24)

`holders m l` is who holds mutex `m` according to the history `l`; `Disciplined l` says that mutexes were only released by coroutines that
held them.  `queue s m` is the line in front of the mutex.
-/
namespace Neco.Rt
open Neco.Err

/-! ## Mutual exclusion (C21) -/

/-- who holds a mutex for writing holds it alone -/
theorem C21_exclusive {ok} {s : S} (r : Reach ok s) (hd : Disciplined s.log) {m i : Nat} (h : (i, false) ∈ holders m s.log) : holders m s.log = [(i, false)] := by
  have o := reach_invLk r hd m
  unfold LockOk at o
  cases hl : (s.mu m).locked with
  | false => rw [(o.free hl).1] at h; cases h
  | true =>
    by_cases h0 : (s.mu m).rlocked = 0
    · obtain ⟨j, e⟩ := o.wr hl h0
      rw [e] at h ⊢
      simp at h; rw [h]
    · exact absurd ((o.rd h0).2.2 _ h) (by simp)

/-- a lock call that returns `NECO_OK` leaves the caller holding the mutex, in the way it asked for -/
theorem C21_lock_ok_partial {s : S} {i m : Nat} (f : Fresh i s) {rd : Bool} {c : Call} {d : Msg} (h : Returns s i c OK d) (hc : c.takes m rd) : (i, rd) ∈ holders m s.log := by
  have r := f.reach
  have e := (returns_ok f h).2.2
  obtain ⟨b, hb⟩ := returns_call r h
  have hg : .grant m i rd ∈ since i s.log := by
    cases c <;> simp only [Call.takes] at hc <;> first | exact hc.elim | skip
    all_goals
      obtain ⟨rfl, rfl⟩ := hc
      have := e rfl
      exact mem_sn this
  rw [hb]
  refine mem_holders (no_release r hb ?_ ?_) hg
  · rintro rfl; exact hc
  · rintro v dl rfl; exact hc

/-! ## The order of the queue (C22) -/

/-- a coroutine that waits for a mutex is in line -/
theorem C22_queue_partial {s : S} {m i : Nat} (f : Fresh i s) {rd : Bool} (h : Awaits s m i rd) : (i, rd) ∈ queue s m := by
  have r := f.reach
  obtain ⟨h1, _, h3⟩ := lock_in f h
  exact List.mem_map.mpr ⟨_, h1, by simp [Node.owner, h3]⟩

/-- who is in line asked for this mutex and was not answered yet: it is in a lock call, or at the end of a `neco_cond_wait` -/
theorem C22_in_line {ok} {s : S} (r : Reach ok s) {m i : Nat} {rd : Bool} (h : (i, rd) ∈ queue s m) :
    (∃ dl, pending i s.log = some (lockCall m rd dl)) ∨ (Relocking s i ∧ rd = false ∧ ∃ v dl, pending i s.log = some (.cvWait v m dl)) := by
  obtain ⟨n, hn, he⟩ := List.mem_map.mp h
  have hpl := (reach_invL r).pl _ _ hn
  simp only [Prod.mk.injEq] at he
  obtain ⟨rfl, rfl⟩ := he
  cases n with
  | case i x => exact hpl.elim
  | co i =>
    simp only [Node.owner] at hpl ⊢
    rcases hpl with ⟨h1, ⟨dl, h2⟩, h3⟩ | ⟨h1, ⟨dl, h2⟩, h3⟩ | ⟨h1, ⟨v, dl, h2⟩, h3⟩
    · exact .inl ⟨dl, (pending_call r).mpr ⟨by rw [h2, h3]; rfl, lockCall_ne_none⟩⟩
    · exact .inl ⟨dl, (pending_call r).mpr ⟨by rw [h2, h3]; rfl, lockCall_ne_none⟩⟩
    · exact .inr ⟨h1, h3, v, dl, (pending_call r).mpr ⟨h2, by simp⟩⟩

/-- the line is in the order of the lock calls -/
theorem C22_order {ok} {s : S} (r : Reach ok s) (m : Nat) :
    (queue s m).Pairwise (fun x y => (∃ dl, pending x.1 s.log = some (lockCall m x.2 dl)) → (∃ dl, pending y.1 s.log = some (lockCall m y.2 dl)) → CalledBefore x.1 y.1 s.log) := by
  unfold queue
  rw [List.pairwise_map]
  have hd : ∀ n ∈ s.lists (.muQ m), (∃ dl, pending n.owner s.log = some (lockCall m (s.co n.owner).rlocked dl)) → Direct s n := by
    intro n hn ⟨dl, hp⟩
    have hcl := ((pending_call r).mp hp).1
    have hpl := (reach_invL r).pl _ _ hn
    cases n with
    | case i x => exact hpl.elim
    | co i =>
      simp only [Node.owner] at hpl hcl
      rcases hpl with ⟨h1, _⟩ | ⟨h1, _⟩ | ⟨h1, ⟨v, dl, h2⟩, h3⟩
      · exact ⟨i, _, rfl, h1, rfl⟩
      · exact ⟨i, _, rfl, h1, rfl⟩
      · rw [hcl] at h2; unfold lockCall at h2; split at h2 <;> cases h2
  refine ((reach_invFifo r) (.muQ m) (by simp) (by simp)).imp_of_mem ?_
  intro x y hx hy h h1 h2
  exact h (hd x hx h1) (hd y hy h2)

theorem nextUp_prefix (q : List (Nat × Bool)) : ∃ t, q = nextUp q ++ t := by
  unfold nextUp
  split
  · exact ⟨[], rfl⟩
  · rename_i i q
    exact ⟨q.dropWhile (fun e => e.2), by simp⟩
  · rename_i i q; exact ⟨q, rfl⟩

/-- a release of a mutex nobody else holds gives it to those who are next in line: the first one, with all the readers directly behind it if it is a
reader.  A release of a mutex others still hold gives it to nobody. -/
theorem C22_release {ok} {s s' : S} (r : Reach ok s) {i m : Nat} (hc : Running s i) (hs : step s (.call (.unlock m)) = some s') (hd : Disciplined s'.log) :
    s'.log = (if holders m (.release m i :: s.log) = [] then ((nextUp (queue s m)).map (fun e => Ev.grant m e.1 e.2)).reverse else []) ++
      .release m i :: .call i (.unlock m) :: s.log := by
  obtain ⟨_, _, e⟩ := step_call_of hs hc
  simp only [doCall] at e
  have hlog : s'.log = (fastUnlock (note (callSt s i (.unlock m)) (.release m i)) m).log := by rw [e, muUnlock_log]
  obtain ⟨gs, hgs⟩ := fastUnlock_adds' (note (callSt s i (.unlock m)) (.release m i)) m
  have hl2 : s'.log = gs ++ .release m i :: .call i (.unlock m) :: s.log := by rw [hlog, hgs]; rfl
  obtain ⟨rd, hi⟩ := hd gs _ m i hl2
  have hi : (i, rd) ∈ holders m s.log := hi
  have hd' : Disciplined s.log := by
    rw [hl2] at hd
    exact (show Disciplined ((gs ++ [.release m i, .call i (.unlock m)]) ++ s.log) by simpa using hd).suffix
  have o := reach_invLk r hd' m
  obtain ⟨h1, h2, h3⟩ := MuOk.release o hi
  have hh : holders m (.release m i :: s.log) = (holders m s.log).eraseP (fun e => e.1 == i) := by simp [holders]
  rw [hh, hlog]
  by_cases h4 : (s.mu m).rlocked ≤ 1
  · rw [if_pos (h3 h4), fastUnlock_log (s := note (callSt s i (.unlock m)) (.release m i)) h1 h4, queue_call]; rfl
  · have h5 : 1 < (s.mu m).rlocked := by omega
    rw [if_neg, fastUnlock_log0 (s := note (callSt s i (.unlock m)) (.release m i)) (.inr h5)]
    · rfl
    · intro hz
      have := (h2 h5)
      have := this.rd (by simp; omega)
      rw [hz] at this
      simp at this
      omega

/-- as long as a coroutine waits for a mutex, nobody who comes later gets it before: it is only given to those in line, and to no one who called later
unless the one waiting is given it too in the same step -/
theorem C22_fifo_partial {s s' : S} {a : Act} (hs : step s a = some s') {es : List Ev} (hl : s'.log = es ++ s.log) {m i j : Nat} {rd rj : Bool}
    (f : Fresh j s) (hj : Awaits s m j rj) (hg : .grant m i rd ∈ es) :
    (i, rd) ∈ queue s m ∧ ((∃ dl, pending i s.log = some (lockCall m rd dl)) → CalledBefore j i s.log → .grant m j rj ∈ es) := by
  have r := f.reach
  have hin := C22_queue_partial f hj
  have hne : s.lists (.muQ m) ≠ [] := by
    intro e; unfold queue at hin; rw [e] at hin; cases hin
  have hlk := reach_invB r m hne
  cases step_grant hs hl hg with
  | own c ha hk hx he ho hf hf' =>
    exfalso
    cases rd with
    | false => rw [hf rfl] at hlk; cases hlk
    | true =>
      have := hf' rfl
      exact hne (rdBusy_false this).1
  | relock v dl ha hk hp hx hr he hf => rw [hf] at hlk; cases hlk
  | hand k c ha hk hx he hn =>
    obtain ⟨t, ht⟩ := nextUp_prefix (queue s m)
    refine ⟨by rw [ht]; exact List.mem_append.mpr (.inl hn), fun hp hb => ?_⟩
    rw [he]
    refine List.mem_append.mpr (.inl (List.mem_reverse.mpr (List.mem_map.mpr ⟨(j, rj), ?_, rfl⟩)))
    have ho := C22_order r m
    rw [ht] at hin ho
    rcases List.mem_append.mp hin with h | h
    · exact h
    · have := (List.pairwise_append.mp ho).2.2 _ hn _ h hp hj.2
      unfold CalledBefore at this hb
      dsimp only at this
      omega

/-! ## Nobody waits for a free mutex (C23) -/

/-- a mutex somebody waits for is held -/
theorem C23_held_partial {s : S} (hd : Disciplined s.log) {m i : Nat} (f : Fresh i s) {rd : Bool} (h : Awaits s m i rd) : holders m s.log ≠ [] := by
  have r := f.reach
  have h1 := (lock_in f h).1
  have hlk := reach_invB r m (by intro e; rw [e] at h1; cases h1)
  have o := reach_invLk r hd m
  unfold LockOk at o
  intro hz
  by_cases h0 : (s.mu m).rlocked = 0
  · obtain ⟨j, e⟩ := o.wr hlk h0
    rw [hz] at e; cases e
  · have := (o.rd h0).2.1
    rw [hz] at this; simp at this; omega

/-- a mutex with somebody in line is never free, whatever happened before -/
theorem C23_line_locked {ok} {s : S} (r : Reach ok s) {m : Nat} (h : queue s m ≠ []) : (s.mu m).locked = true := by
  refine reach_invB r m fun e => h ?_
  unfold queue; rw [e]; rfl

/-- unlocking a mutex nobody holds changes nothing but the caller's own place: it yields -/
theorem C23_unlock_free {ok} {s s' : S} (r : Reach ok s) (hd : Disciplined s.log) {i m : Nat} (hc : Running s i) (hz : holders m s.log = [])
    (hs : step s (.call (.unlock m)) = some s') :
    s'.mu = s.mu ∧ s'.lists = s.lists ∧ s'.sco = s.sco.yield ∧ (∀ j, j ≠ i → s'.co j = s.co j) ∧ s'.log = .release m i :: .call i (.unlock m) :: s.log := by
  obtain ⟨_, _, e⟩ := step_call_of hs hc
  simp only [doCall] at e
  have o := reach_invLk r hd m
  unfold LockOk at o
  have hf : (s.mu m).locked = false := by
    cases hl : (s.mu m).locked with
    | false => rfl
    | true =>
      exfalso
      by_cases h0 : (s.mu m).rlocked = 0
      · obtain ⟨j, e⟩ := o.wr hl h0
        rw [hz] at e; cases e
      · have := (o.rd h0).2.1
        rw [hz] at this; simp at this; omega
  have h1 : unlockHands (callSt s i (.unlock m)) m = false := by
    unfold unlockHands
    show ((s.mu m).locked && _ && _) = false
    rw [hf]; rfl
  have h2 : fastUnlock (note (callSt s i (.unlock m)) (.release m i)) m = note (callSt s i (.unlock m)) (.release m i) := by
    unfold fastUnlock
    show (if (s.mu m).locked = false then _ else _) = _
    rw [if_pos hf]
  unfold muUnlock at e
  rw [h1, h2] at e
  simp only [Bool.false_eq_true, if_false] at e
  subst e
  refine ⟨by simp [callSt], by simp [callSt], by simp [callSt], fun j hj => ?_, by simp [callSt]⟩
  rw [coyield_co, if_neg hj]
  show (callSt s i (.unlock m)).co j = _
  simp [callSt, upd_co, hj]

/-! ## A failed attempt (C24) -/

theorem own_ext {m i : Nat} {a b : List Ev} (h1 : ∀ rd, .grant m i rd ∉ a) (h2 : .release m i ∉ a) : (holders m (a ++ b)).filter (fun e => e.1 == i) = (holders m b).filter (fun e => e.1 == i) := by
  induction a with
  | nil => rfl
  | cons e a ih =>
    have ih' := ih (fun rd h => h1 rd (List.mem_cons_of_mem _ h)) (fun h => h2 (List.mem_cons_of_mem _ h))
    simp only [List.cons_append]
    cases e <;> simp only [holders] <;> first | exact ih' | skip
    case grant k j rd =>
      split
      · rename_i hk
        subst hk
        have : j ≠ i := fun e => h1 rd (by rw [e]; simp)
        rw [List.filter_cons_of_neg (by simpa using this)]; exact ih'
      · exact ih'
    case release k j =>
      split
      · rename_i hk
        subst hk
        have hj : j ≠ i := fun e => h2 (by rw [e]; simp)
        rw [← ih']
        generalize holders k (a ++ b) = L
        induction L with
        | nil => rfl
        | cons x L ihL =>
          by_cases hx : x.1 = j
          · rw [List.eraseP_cons_of_pos (by simpa using hx), List.filter_cons_of_neg (by simp; omega)]
          · rw [List.eraseP_cons_of_neg (by simpa using hx)]
            simp only [List.filter_cons, ihL]
      · exact ih'

/-- a lock call that fails without anyone having released the mutex meanwhile leaves the caller with what it held before.  (Missing: a mutex that was
handed to the caller during the call stays with it even if the call fails, see `C24_not_general`.) -/
theorem C24_partial {ok} {s : S} (r : Reach ok s) {i m : Nat} {rd : Bool} {dl v : Int} {d : Msg} {b : List Ev} (h : Returns s i (lockCall m rd dl) v d)
    (hb : s.log = since i s.log ++ .call i (lockCall m rd dl) :: b) (hv : v ≠ OK) (hn : ∀ k, .release m k ∉ since i s.log) :
    (holders m s.log).filter (fun e => e.1 == i) = (holders m b).filter (fun e => e.1 == i) := by
  obtain ⟨h1, h2, h3, h4, h5⟩ := h.elim
  rw [hb]
  have hx : ∀ rd', .grant m i rd' ∉ since i s.log := by
    intro rd' hg
    rcases reach_invGr r i m rd' rd dl h3 hg with ⟨k, h⟩ | h | h
    · exact hn k h
    · rw [h2] at h; cases h
    · rw [h2] at h; exact hv (Option.some.inj h)
  rw [own_ext hx (hn i)]
  rfl

/-! ## Cases, and counterexamples -/

/-- `Disciplined` as a test -/
def disciplinedB : List Ev → Bool
  | [] => true
  | .release m i :: l => (holders m l).any (fun e => e.1 == i) && disciplinedB l
  | _ :: l => disciplinedB l
theorem disciplinedB_iff {l : List Ev} : disciplinedB l = true ↔ Disciplined l := by
  have cons : ∀ {e : Ev} {l : List Ev}, Disciplined (e :: l) ↔ (∀ m i, e = .release m i → ∃ rd, (i, rd) ∈ holders m l) ∧ Disciplined l := by
    intro e l
    refine ⟨fun h => ⟨fun m i he => h [] l m i (by rw [he]; rfl), h.tail⟩, fun ⟨h1, h2⟩ a b m i he => ?_⟩
    cases a with
    | nil => simp only [List.nil_append, List.cons.injEq] at he; obtain ⟨rfl, rfl⟩ := he; exact h1 m i rfl
    | cons x a => simp only [List.cons_append, List.cons.injEq] at he; exact h2 a b m i he.2
  induction l with
  | nil => simp [disciplinedB, Disciplined]
  | cons e l ih =>
    rw [cons]
    cases e <;> simp [disciplinedB, ih]

/-- 1 holds the mutex for writing; 2 (a reader), 3 (a reader) and 4 wait -/
def lineup : List Sc := [.on 1 (.call (.lock 0 MAX)), .on 1 (.call .start), .on 2 (.call (.rdlock 0 MAX)), .on 1 (.call .start), .on 3 (.call (.rdlock 0 MAX)),
  .on 1 (.call .start), .on 4 (.call (.lock 0 MAX))]

example : ∃ s, Fresh 4 s ∧ Fresh 2 s ∧ (1, false) ∈ holders 0 s.log ∧ Awaits s 0 4 false ∧ Awaits s 0 2 true ∧ queue s 0 = [(2, true), (3, true), (4, false)] := by
  obtain ⟨s, r, h⟩ := scriptC lineup
    (p := fun s => decide ((1, false) ∈ holders 0 s.log ∧ (4 ∈ s.sco.paused ∧ .co 4 ∉ s.lists .resumers ∧ pending 4 s.log = some (.lock 0 MAX)) ∧
      (2 ∈ s.sco.paused ∧ .co 2 ∉ s.lists .resumers ∧ pending 2 s.log = some (.rdlock 0 MAX)) ∧ queue s 0 = [(2, true), (3, true), (4, false)])) (by decide +kernel)
  obtain ⟨h1, ⟨h2, h3, h4⟩, ⟨h5, h6, h7⟩, h8⟩ := of_decide_eq_true h
  exact ⟨s, pending_fresh r h4, pending_fresh r h7, h1, ⟨⟨h2, h3⟩, MAX, h4⟩, ⟨⟨h5, h6⟩, MAX, h7⟩, h8⟩
/-- the release by 1 gives the mutex to both readers -/
example : ∃ s s', Reach Clean s ∧ Running s 1 ∧ step s (.call (.unlock 0)) = some s' ∧ s'.log = .grant 0 3 true :: .grant 0 2 true :: .release 0 1 :: .call 1 (.unlock 0) :: s.log ∧
    holders 0 s.log = [(1, false)] := by
  obtain ⟨s, r, h⟩ := scriptC (lineup ++ [.til (turn 1)])
    (p := fun s => decide (s.sco.cur = some 1 ∧ holders 0 s.log = [(1, false)] ∧ (step s (.call (.unlock 0))).map (fun t => t.log) =
      some (.grant 0 3 true :: .grant 0 2 true :: .release 0 1 :: .call 1 (.unlock 0) :: s.log))) (by decide +kernel)
  obtain ⟨h1, h2, h3⟩ := of_decide_eq_true h
  obtain ⟨s', h4, h5⟩ := Option.map_eq_some_iff.mp h3
  exact ⟨s, s', r, h1, h4, h5, h2⟩
/-- a lock call succeeds -/
example : ∃ s, Fresh 4 s ∧ Returns s 4 (.lock 0 MAX) OK 0 ∧ (Call.lock 0 MAX).takes 0 false := by
  obtain ⟨s, r, h⟩ := retF (lineup ++ [.on 1 (.call (.unlock 0)), .on 2 (.call (.unlock 0)), .on 3 (.call (.unlock 0))]) (i := 4) (c := .lock 0 MAX) (v := OK) (d := 0) (by decide +kernel)
  exact ⟨s, r, h, rfl, rfl⟩
/-- a lock call times out, nobody having released the mutex -/
example : ∃ s b, Reach Clean s ∧ Returns s 1 (lockCall 0 false 0) TIMEDOUT 0 ∧ s.log = since 1 s.log ++ .call 1 (lockCall 0 false 0) :: b ∧ holders 0 b = [(1, false)] ∧
    ∀ k, .release 0 k ∉ since 1 s.log := by
  obtain ⟨s, r, h⟩ := scriptC [.on 1 (.call (.lock 0 MAX)), .on 1 (.call (.lock 0 0))]
    (p := fun s => histB 1 (.lock 0 0) TIMEDOUT 0 (fun b => decide (holders 0 b = [(1, false)])) s && (since 1 s.log).isEmpty) (by decide +kernel)
  simp only [histB, Bool.and_eq_true, decide_eq_true_eq, List.isEmpty_iff] at h
  exact ⟨s, _, r, returnsB_iff.mp h.1.1.1, h.1.1.2, h.1.2, by rw [h.2]; simp⟩

/-- **False of the code**: a mutex handed to a waiter that is canceled before it runs again stays with it, although its lock call returns
`NECO_CANCELED` -/
theorem C24_not_general : ¬ ∀ (s : S) (i m : Nat) (rd : Bool) (dl v : Int) (d : Msg) (b : List Ev), Reach Clean s → Disciplined s.log → Returns s i (lockCall m rd dl) v d →
    s.log = since i s.log ++ .call i (lockCall m rd dl) :: b → v ≠ OK → (holders m s.log).filter (fun e => e.1 == i) = (holders m b).filter (fun e => e.1 == i) := by
  intro h
  obtain ⟨s, r, hp⟩ := scriptC [.on 1 (.call (.lock 0 MAX)), .on 1 (.call .start), .on 2 (.call (.lock 0 MAX)), .on 1 (.call .start), .on 3 (.call .yield), .on 1 (.call (.unlock 0)),
      .on 3 (.call (.cancel 2 MAX))]
    (p := fun s => histB 2 (.lock 0 MAX) CANCELED 0 (fun b => decide (holders 0 b = [(1, false)])) s && decide (holders 0 s.log = [(2, false)]) && disciplinedB s.log) (by decide +kernel)
  simp only [histB, Bool.and_eq_true, decide_eq_true_eq] at hp
  obtain ⟨⟨⟨⟨h1, h2⟩, h3⟩, h4⟩, h5⟩ := hp
  have := h s 2 0 false MAX CANCELED 0 _ r (disciplinedB_iff.mp h5) (returnsB_iff.mp h1) h2 (by decide)
  rw [h3, h4] at this
  exact absurd this (by decide)

/-- a coroutine that was canceled in `neco_work`, and whose background work is not finished, waits for a mutex; the end of the work takes it out of the line -/
def pulled : List Sc := [.on 1 (.call (.lock 0 MAX)), .on 1 (.call .start), .on 2 (.call .work), .raw (.submit true), .on 1 (.call (.cancel 2 MAX)), .on 2 (.call (.lock 0 MAX)), .on 2 (.call (.lock 0 MAX)), .on 1 (.call .getid),
  .raw (.wdone 2)]

/-- **False of the code** if stale wake-ups happen: a lock call returns `NECO_OK` while another coroutine holds the mutex -/
theorem C21_not_general : ¬ ∀ (s : S) (i m : Nat) (dl : Int) (d : Msg), Reach any s → Disciplined s.log → Returns s i (.lock m dl) OK d → (i, false) ∈ holders m s.log := by
  intro h
  obtain ⟨s, r, hp⟩ := scriptA (pulled ++ [.on 1 (.call .start), .on 3 (.call .work), .raw (.submit true)]) (p := fun s => returnsB s 2 (.lock 0 MAX) OK 0 && decide (holders 0 s.log = [(1, false)]) && disciplinedB s.log) (by decide +kernel)
  simp only [Bool.and_eq_true, decide_eq_true_eq] at hp
  have := h s 2 0 MAX 0 r (disciplinedB_iff.mp hp.2) (returnsB_iff.mp hp.1.1)
  rw [hp.1.2] at this; simp at this

/-- **False of the code** if stale wake-ups happen: a coroutine waits for a mutex without being in line -/
theorem C22_not_general : ¬ ∀ (s : S) (i m : Nat) (rd : Bool), Reach any s → Awaits s m i rd → (i, rd) ∈ queue s m := by
  intro h
  obtain ⟨s, r, hp⟩ := scriptA pulled (p := fun s => decide (2 ∈ s.sco.paused ∧ .co 2 ∉ s.lists .resumers ∧ pending 2 s.log = some (.lock 0 MAX) ∧ queue s 0 = [])) (by decide +kernel)
  obtain ⟨h1, h2, h3, h4⟩ := of_decide_eq_true hp
  have := h s 2 0 false r ⟨⟨h1, h2⟩, MAX, h3⟩
  rw [h4] at this; cases this

/-- **False of the code** if stale wake-ups happen: a coroutine waits for a free mutex -/
theorem C23_not_general : ¬ ∀ (s : S) (i m : Nat) (rd : Bool), Reach any s → Disciplined s.log → Awaits s m i rd → holders m s.log ≠ [] := by
  intro h
  obtain ⟨s, r, hp⟩ := scriptA (pulled ++ [.on 1 (.call (.unlock 0))])
    (p := fun s => decide ((2 ∈ s.sco.paused ∧ .co 2 ∉ s.lists .resumers ∧ pending 2 s.log = some (.lock 0 MAX) ∧ holders 0 s.log = [])) && disciplinedB s.log) (by decide +kernel)
  simp only [Bool.and_eq_true, decide_eq_true_eq] at hp
  obtain ⟨⟨h1, h2, h3, h4⟩, h5⟩ := hp
  exact h s 2 0 false r (disciplinedB_iff.mp h5) ⟨⟨h1, h2⟩, MAX, h3⟩ h4

/-- unlocking a mutex nobody holds -/
example : ∃ s s', Reach Clean s ∧ Disciplined s.log ∧ Running s 1 ∧ holders 0 s.log = [] ∧ step s (.call (.unlock 0)) = some s' := by
  refine ⟨init false true, _, .init .., ?_, rfl, rfl, rfl⟩
  exact disciplinedB_iff.mp (by decide)

end Neco.Rt
