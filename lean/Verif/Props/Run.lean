import Verif.Proof.Run9

/-! # C67: what neco_start leaves behind and returns; C68: signals -/

namespace Neco.Run

/-! ## Executions for the examples -/

def yes : Nat → Bool := fun _ => true
/-- the allocation with this number fails -/
def but (k : Nat) : Nat → Bool := fun i => i != k

/-- a process with standard input, output and error, and default dispositions except that of SIGINT, for which it has a handler -/
def w0 : W := init (fun f => decide (f < 3)) (fun n => if n = 2 then .user 7 false else .dfl) 2

theorem w0_reach (p : W → Act → Prop) : Reach p w0 := .init _ _ _ (by intro n; split <;> simp)

/-- the set-up of the main thread: it gets to `rt_scheduler` with coroutine 9 (the block number of its control block) -/
def up0 : List Act := .call 0 true :: List.replicate 18 (.tau 0 yes)
/-- the same in another thread -/
def up (t : Nat) : List Act := .call t true :: List.replicate 3 (.tau t yes)
/-- the tear-down of the main thread -/
def down0 : List Act := .finish 0 :: List.replicate 20 (.tau 0 yes)
def down (t : Nat) : List Act := .finish t :: List.replicate 6 (.tau t yes)

/-- a whole life of a runtime in the main thread, with a channel, an event queue, a job and random numbers -/
def life0 : List Act :=
  up0 ++ [.begin 0 true, .grow 0 true, .mkchan 0 true, .relchan 0 12 true, .wait 0 1000 (some 3), .random 0, .submit 0 9, .done 0 9,
    .watch 0 10, .signal 0 10, .unwait 0, .endco 0 9, .endco 0 10] ++ down0


/-! ## C67 -/

/-- **C67**: whenever a thread is outside of `neco_start`, nothing its runtimes have allocated is still allocated: whatever the coroutines did, whichever
allocations failed, and whatever the other threads do -/
theorem C67_no_memory {p : W → Act → Prop} {w : W} (r : Reach p w) (t : Nat) (h : Outside w t) : NoMemory w t := by
  intro b hb
  have := ((reach_inv r).th t).own b |>.mp hb
  rw [thBlocks, ((reach_inv r).th t).out.mp h] at this
  cases this

/-- **C67**: and no library is left open -/
theorem C67_no_library {p : W → Act → Prop} {w : W} (r : Reach p w) (t : Nat) (h : Outside w t) : w.dls t = 0 :=
  ((reach_inv r).th t).dl0 (((reach_inv r).th t).out.mp h)

/-- **C67**: and no event queue, if descriptor 0 is never given to one -/
theorem C67_queue_partial {w : W} (r : Reach NoZero w) (t : Nat) (h : Outside w t) : NoQueue w t := by
  intro f hf
  obtain ⟨_, _, r1, hr, _⟩ := reach_invQ (fun _ _ h => h) r t f hf
  rw [((reach_inv r).th t).out.mp h] at hr
  cases hr

/-- **C67**: a thread has at most one event queue at any time, if descriptor 0 is never given to one -/
theorem C67_one_queue_partial {w : W} (r : Reach NoZero w) (t f g : Nat) (hf : w.fds f = some (.rt t)) (hg : w.fds g = some (.rt t)) : f = g := by
  obtain ⟨_, _, r1, hr, e⟩ := reach_invQ (fun _ _ h => h) r t f hf
  obtain ⟨_, _, r2, hr2, e2⟩ := reach_invQ (fun _ _ h => h) r t g hg
  rw [hr] at hr2; cases hr2
  rw [e, e2]

/-- **C67**: nothing that is not allocated is freed or used, and no descriptor closed that is not the runtime's, if no coroutine ends while its job
is in a worker thread -/
theorem C67_safe_partial {w : W} (r : Reach Patient w) : w.fault = false := reach_fault (fun _ _ h => h) r

/-- **C67**: a call of `neco_start` outside of a runtime returns NECO_OK if its coroutine has started, and else NECO_NOMEM -/
theorem C67_result {p : W → Act → Prop} {w : W} (r : Reach p w) (t : Nat) (l1 l2 : List Ev) (x : Int) (h : w.log = l1 ++ .ret t x :: l2) :
    (x = OK ∧ ranSince t l2 = true) ∨ (x = NOMEM ∧ ranSince t l2 = false) := (reach_invL r t).past l1 l2 x h

/-- **C67**: it returns NECO_OK if no allocation fails -/
theorem C67_enough {w : W} (r : Reach Plenty w) (t : Nat) (x : Int) (h : Ev.ret t x ∈ w.log) : x = OK := (reach_invM r t).past x h

/-- **C67**: no two runtimes of a process have the same id, not even at different times, and none has id 0, which marks objects without a runtime -/
theorem C67_ids {p : W → Act → Prop} {w : W} (r : Reach p w) : (ids w.log).Nodup ∧ 0 ∉ ids w.log :=
  ⟨(reach_invI r).nd, fun h => by have := ((reach_invI r).bd 0 h).1; omega⟩

/-! ### Examples -/

theorem witness {p : W → Act → Prop} (c : W → Act → Bool) (hc : ∀ w a, c w a = true → p w a) (l : List Act) (P : W → Bool)
    (h : (runIf c w0 l).map P = some true) : ∃ w, Reach p w ∧ Steps p w0 l w ∧ P w = true := by
  cases e : runIf c w0 l with
  | none => rw [e] at h; cases h
  | some w =>
    rw [e] at h
    exact ⟨w, (runIf_steps hc l e).reach (w0_reach _), runIf_steps hc l e, by simpa using h⟩

def noZeroB (_ : W) : Act → Bool
  | .wait _ _ q => decide (q ≠ some 0)
  | _ => true

theorem noZeroB_ok (w : W) (a : Act) (h : noZeroB w a = true) : NoZero w a := by
  cases a <;> simp_all [noZeroB, NoZero]

def patientB (w : W) : Act → Bool
  | .endco t b => match (w.th t).rt with | none => true | some r => decide (b ∉ r.jobs)
  | _ => true

theorem patientB_ok (w : W) (a : Act) (h : patientB w a = true) : Patient w a := by
  cases a <;> simp_all [patientB, Patient]
  intro r hr
  rw [hr] at h
  simpa using h

def calmB (w : W) : Act → Bool
  | .signal t n => (decide (w.handler n ≠ .neco) || (w.th t).rt.isSome) &&
      (decide (t ≠ 0) || !stacked (w.handler n) || early (w.th t).pc || decide (Ev.call 0 ∉ w.log))
  | .wsignal _ n => decide (w.handler n ≠ .neco)
  | _ => true

theorem calmB_ok (w : W) (a : Act) (h : calmB w a = true) : Calm w a := by
  cases a <;> simp_all [calmB, Calm]
  obtain ⟨h1, h2⟩ := h
  refine ⟨fun e => ?_, fun e hs => ?_⟩
  · have := h1.resolve_left (by simp [e])
    exact fun hn => by rw [hn] at this; cases this
  · subst e
    simpa [hs] using h2

def anyB (_ : W) (_ : Act) : Bool := true
theorem anyB_ok (w : W) (a : Act) (_ : anyB w a = true) : Any w a := trivial

/-- a whole life: the hypotheses of the theorems about threads outside of `neco_start` are met after it -/
example : ∃ w, Reach NoZero w ∧ Outside w 0 ∧ w.log = [.ret 0 OK, .ran 0, .born 0 1, .call 0] ∧ w.next = 13 := by
  obtain ⟨w, h1, _, h2⟩ := witness noZeroB noZeroB_ok life0
    (fun w => decide ((w.th 0).pc = .out ∧ w.log = [.ret 0 OK, .ran 0, .born 0 1, .call 0] ∧ w.next = 13)) (by decide +kernel)
  exact ⟨w, h1, by simpa only [Outside, decide_eq_true_eq] using h2⟩

/-- in the middle of it there are memory, a queue and a library to be given back -/
example : ∃ w, Reach NoZero w ∧ ¬ NoMemory w 0 ∧ ¬ NoQueue w 0 ∧ w.dls 0 = 1 := by
  obtain ⟨w, h1, _, h2⟩ := witness noZeroB noZeroB_ok (life0.take 25)
    (fun w => decide (w.heap 9 = some (.rt 0) ∧ w.fds 3 = some (.rt 0) ∧ w.dls 0 = 1)) (by decide +kernel)
  obtain ⟨a, b, c⟩ := of_decide_eq_true h2
  exact ⟨w, h1, fun h => h 9 a, fun h => h 3 b, c⟩

/-- the same life for `C67_safe_partial` -/
example : ∃ w, Reach Patient w ∧ w.log = [.ret 0 OK, .ran 0, .born 0 1, .call 0] := by
  obtain ⟨w, h1, _, h2⟩ := witness patientB patientB_ok life0
    (fun w => decide (w.log = [.ret 0 OK, .ran 0, .born 0 1, .call 0])) (by decide +kernel)
  exact ⟨w, h1, by simpa only [Outside, decide_eq_true_eq] using h2⟩

/-- two threads whose calls overlap; in the second one an allocation of `worker_new` fails -/
example : ∃ w, Reach Any w ∧ Outside w 0 ∧ Outside w 1 ∧
    w.log = [.ret 0 OK, .ret 1 NOMEM, .born 1 2, .call 1, .ran 0, .born 0 1, .call 0] := by
  obtain ⟨w, h1, _, h2⟩ := witness anyB anyB_ok
    (up0 ++ [.call 1 true, .tau 1 yes, .tau 1 (but 3)] ++ List.replicate 5 (.tau 1 yes) ++ [.endco 0 9] ++ down0)
    (fun w => decide ((w.th 0).pc = .out ∧ (w.th 1).pc = .out ∧
      w.log = [.ret 0 OK, .ret 1 NOMEM, .born 1 2, .call 1, .ran 0, .born 0 1, .call 0])) (by decide +kernel)
  exact ⟨w, h1, by simpa only [Outside, decide_eq_true_eq] using h2⟩

/-- no allocation fails in `life0` -/
example : ∃ w, Reach Plenty w ∧ Ev.ret 0 OK ∈ w.log := by
  have h : (runActs w0 life0).map (fun w => decide (Ev.ret 0 OK ∈ w.log)) = some true := by decide +kernel
  cases e : runActs w0 life0 with
  | none => rw [e] at h; cases h
  | some w =>
    rw [e] at h
    refine ⟨w, (runActs_steps life0 ?_ e).reach (w0_reach _), by simpa using h⟩
    simp [life0, up0, down0, or_imp, forall_and, Plenty, yes]

/-! ### What the restrictions are for -/

/-- with standard input closed the event queue may be descriptor 0, which the runtime takes for none: it is not closed -/
theorem C67_queue_not_general : ¬ ∀ w, Reach Any w → ∀ t, Outside w t → NoQueue w t := by
  intro h
  obtain ⟨w, h1, _, h2⟩ := witness anyB anyB_ok
    (.close 0 :: up0 ++ [.wait 0 1000 (some 0), .unwait 0, .endco 0 9] ++ down0)
    (fun w => decide ((w.th 0).pc = .out ∧ w.fds 0 = some (.rt 0))) (by decide +kernel)
  obtain ⟨a, b⟩ := of_decide_eq_true h2
  exact h w h1 0 a 0 b

/-- and the next wait makes a second one: what the first coroutine waits for is not in the queue the runtime asks -/
theorem C67_one_queue_not_general : ¬ ∀ w, Reach Any w → ∀ t f g, w.fds f = some (.rt t) → w.fds g = some (.rt t) → f = g := by
  intro h
  obtain ⟨w, h1, _, h2⟩ := witness anyB anyB_ok
    (.close 0 :: up0 ++ [.begin 0 true, .wait 0 1000 (some 0), .wait 0 1000 (some 3)])
    (fun w => decide (w.fds 0 = some (.rt 0) ∧ w.fds 3 = some (.rt 0))) (by decide +kernel)
  obtain ⟨a, b⟩ := of_decide_eq_true h2
  exact absurd (h w h1 0 0 3 a b) (by decide)

/-- `neco_cancel` wakes a coroutine that is in `neco_work` or in a write by a worker thread (finding 8), and it may end while its job goes on: the job
writes to its memory after the runtime has freed it -/
theorem C67_safe_not_general : ¬ ∀ w, Reach Any w → w.fault = false := by
  intro h
  obtain ⟨w, h1, _, h2⟩ := witness anyB anyB_ok
    (up0 ++ [.submit 0 9, .endco 0 9, .drop 0, .done 0 9]) (fun w => w.fault) (by decide +kernel)
  rw [h w h1] at h2; cases h2

/-! ## C68 -/

/-- **C68**: between two moments at which the main thread is outside of `neco_start`, the disposition of a signal changes only if the program changes it -/
theorem C68_restored {w w' : W} {l : List Act} {n : Nat} (r : Reach Any w) (s : Steps Any w l w') (h0 : Outside w 0) (h1 : Outside w' 0)
    (h : ∀ d, Act.sigaction n d ∉ l) : w'.handler n = w.handler n := by
  have e := steps_original r s h
  rwa [original_out r h0, original_out (s.reach r) h1] at e

/-- **C68**: while the main thread is outside of `neco_start`, no signal goes to the handler of neco -/
theorem C68_gone {w : W} (r : Reach Any w) (h0 : Outside w 0) (n : Nat) : w.handler n ≠ .neco := by
  rw [← original_out r h0]; exact reach_original r n

/-- **C68**: a step of any other thread, in `neco_start` or not, does not change the disposition of a signal unless it is a call of `sigaction` -/
theorem C68_others {w w' : W} {a : Act} {n : Nat} (r : Reach Any w) (h : step w a = some w') (ha : ∀ d, a ≠ .sigaction n d)
    (h0 : ∀ ok, a ≠ .tau 0 ok) : w'.handler n = w.handler n := step_handler (reach_inv r) (reach_invS r) h ha h0

/-- **C68**: while coroutines of the main thread run, each of the signals goes to the handler of neco, if the program does not change dispositions
in the meantime -/
theorem C68_installed_partial {w : W} (r : Reach Hands w) (h : (w.th 0).pc = .run) (n : Nat) (hn : n ∈ allowed ++ trapped) : w.handler n = .neco := by
  obtain ⟨r1, b, hr, _⟩ := (reach_invS r 0).stk rfl (by rw [h]; rfl)
  exact reach_invH r r1 n hr (by rw [h]; simpa [saved, sigs] using hn)

/-- **C68**: no signal handler uses memory that is not allocated, or a null pointer, if signals that neco handles arrive only in threads with a runtime
and in the main thread not during set-up and tear-down or afterwards -/
theorem C68_safe_partial {w : W} (r : Reach Calm w) : w.sigfault = false := reach_sigfault (fun _ _ h => h) r

/-- **C68**: a signal the program can wait for, which nobody watches, ends the process, unless it is SIGPIPE, which does nothing; one that somebody
watches is counted for the watchers and does nothing else.  (Without `Hands` the program may have put its own handler in the place of neco's.) -/
theorem C68_signal_partial {w w' : W} {n : Nat} (r : Reach Hands w) (h : (w.th 0).pc = .run) (hn : n ∈ allowed) (hs : step w (.signal 0 n) = some w') :
    (Watched w 0 n → w'.died = none ∧ ∀ m, queued w' 0 m = queued w 0 m + if m = n then 1 else 0) ∧
    (¬ Watched w 0 n → n = SIGPIPE → w' = w) ∧
    (¬ Watched w 0 n → n ≠ SIGPIPE → w'.died = some n) ∧ w'.handler = w.handler := by
  have hh := C68_installed_partial r h n (List.mem_append_left _ hn)
  obtain ⟨r1, b, hr, _⟩ := (reach_invS r 0).stk rfl (by rw [h]; rfl)
  have ho := onStack_ok (alt_live (reach_inv r) (reach_invA r) 0 (fun _ => .inl (by rw [h]; rfl)))
  have hw : Watched w 0 n ↔ r1.sigwatchers n ≠ 0 := by
    refine ⟨fun ⟨r2, h2, h3⟩ => ?_, fun h3 => ⟨r1, hr, h3⟩⟩
    rw [hr] at h2; cases h2; exact h3
  simp only [step] at hs
  split at hs
  · cases hs
  rename_i hd
  have hd : w.died = none := by simpa using hd
  cases hs
  simp only [deliver, hh, ho, sighandler, hr, if_pos hn, hw]
  by_cases h0 : r1.sigwatchers n = 0
  · rw [if_pos h0]
    refine ⟨fun h => absurd h0 h, fun _ e => ?_, fun _ e => ?_, ?_⟩
    · rw [if_neg (by simpa using e)]
    · rw [if_pos e]
    · split <;> rfl
  · rw [if_neg h0]
    refine ⟨fun _ => ⟨hd, fun m => ?_⟩, fun h => absurd h0 h, fun h => absurd h0 h, rfl⟩
    simp only [queued, setRt, setTh, if_pos, hr, Option.map_some, Option.getD_some]
    split <;> simp_all

/-- **C68**: a signal that says that the program crashed ends the process -/
theorem C68_trap_partial {w w' : W} {n : Nat} (r : Reach Hands w) (h : (w.th 0).pc = .run) (hn : n ∈ trapped) (hs : step w (.signal 0 n) = some w') :
    w'.died = some n := by
  have hh := C68_installed_partial r h n (List.mem_append_right _ hn)
  obtain ⟨r1, b, hr, _⟩ := (reach_invS r 0).stk rfl (by rw [h]; rfl)
  have ho := onStack_ok (alt_live (reach_inv r) (reach_invA r) 0 (fun _ => .inl (by rw [h]; rfl)))
  have hna : n ∉ allowed := by
    simp only [trapped, List.mem_cons, List.not_mem_nil, or_false] at hn
    rcases hn with e | e | e | e | e <;> subst e <;> decide
  simp only [step] at hs
  split at hs
  · cases hs
  cases hs
  simp only [deliver, hh, ho, sighandler, hr, if_neg hna, if_pos hn]

/-! ### Examples -/

/-- the whole life: SIGINT has the program's handler before and after, and neco's in the middle -/
example : ∃ w l w', Reach Any w ∧ Steps Any w l w' ∧ Outside w 0 ∧ Outside w' 0 ∧ w.handler 2 = .user 7 false ∧ w'.log.length = 4 := by
  obtain ⟨w, h1, h3, h2⟩ := witness anyB anyB_ok life0 (fun w => decide ((w.th 0).pc = .out ∧ w.log.length = 4)) (by decide +kernel)
  obtain ⟨a, b⟩ := of_decide_eq_true h2
  exact ⟨w0, life0, w, w0_reach _, h3, rfl, a, rfl, b⟩

example : ∃ w, Reach Any w ∧ (w.th 0).pc = .run ∧ w.handler 2 = .neco := by
  obtain ⟨w, h1, _, h2⟩ := witness anyB anyB_ok up0 (fun w => decide ((w.th 0).pc = .run ∧ w.handler 2 = .neco)) (by decide +kernel)
  exact ⟨w, h1, of_decide_eq_true h2⟩

/-- a set-up that fails after the handlers were set -/
example : ∃ w, Reach Any w ∧ Outside w 0 ∧ w.handler 2 = .user 7 false ∧ w.log = [.ret 0 NOMEM, .born 0 1, .call 0] := by
  obtain ⟨w, h1, _, h2⟩ := witness anyB anyB_ok (up0.take 17 ++ [.tau 0 (but 0)] ++ down0.drop 2)
    (fun w => decide ((w.th 0).pc = .out ∧ w.handler 2 = .user 7 false ∧ w.log = [.ret 0 NOMEM, .born 0 1, .call 0])) (by decide +kernel)
  exact ⟨w, h1, by simpa only [Outside, decide_eq_true_eq] using h2⟩

def handsB (w : W) : Act → Bool
  | .sigaction _ _ => decide ((w.th 0).pc = .out)
  | _ => true

theorem handsB_ok (w : W) (a : Act) (h : handsB w a = true) : Hands w a := by
  cases a <;> simp_all [handsB, Hands, Outside]

example : ∃ w, Reach Hands w ∧ (w.th 0).pc = .run ∧ w.log.length = 3 := by
  obtain ⟨w, h1, _, h2⟩ := witness handsB handsB_ok (.sigaction 15 .ign :: up0) (fun w => decide ((w.th 0).pc = .run ∧ w.log.length = 3)) (by decide +kernel)
  exact ⟨w, h1, of_decide_eq_true h2⟩

/-- signals before, during and after: SIGTERM is ignored by the program before, SIGUSR1 (10) is watched by a coroutine, SIGPIPE arrives unwatched -/
example : ∃ w, Reach Calm w ∧ Outside w 0 ∧ w.died = none ∧ w.log.length = 4 := by
  obtain ⟨w, h1, _, h2⟩ := witness calmB calmB_ok
    ([.sigaltstack 0, .sigaction 15 (.user 8 true), .signal 0 15] ++ up0 ++ [.watch 0 10, .signal 0 10, .signal 0 13, .endco 0 10] ++ down0 ++
      [.sigaction 15 .ign, .signal 0 15])
    (fun w => decide ((w.th 0).pc = .out ∧ w.died = none ∧ w.log.length = 4)) (by decide +kernel)
  exact ⟨w, h1, by simpa only [Outside, decide_eq_true_eq] using h2⟩

/-- SIGUSR1 (10) is watched, SIGINT and SIGPIPE are not; and a state in which each of them has just arrived -/
example : ∃ w, Reach Hands w ∧ (w.th 0).pc = .run ∧ Watched w 0 10 ∧ ¬ Watched w 0 2 ∧ queued w 0 10 = 1 ∧ (step w (.signal 0 10)).isSome ∧
    (step w (.signal 0 2)).isSome ∧ (step w (.signal 0 13)).isSome ∧ (step w (.signal 0 11)).isSome := by
  obtain ⟨w, h1, _, h2⟩ := witness handsB handsB_ok (up0 ++ [Act.watch 0 10, Act.signal 0 10])
    (fun w : W => decide ((w.th 0).pc = .run ∧ queued w 0 10 = 1 ∧ w.died = none) &&
      ((w.th 0).rt.map (fun r : Rtm => decide (r.sigwatchers 10 = 1 ∧ r.sigwatchers 2 = 0))).getD false) (by decide +kernel)
  rw [Bool.and_eq_true] at h2
  obtain ⟨a, b, c⟩ := of_decide_eq_true h2.1
  cases hr : (w.th 0).rt with
  | none => simp [hr] at h2
  | some r =>
    simp only [hr, Option.map_some, Option.getD_some, decide_eq_true_eq] at h2
    exact ⟨w, h1, a, ⟨r, hr, by omega⟩, fun ⟨r2, h3, h4⟩ => by rw [hr] at h3; cases h3; omega, b, by simp [step, c], by simp [step, c], by simp [step, c],
      by simp [step, c]⟩

/-! ### What the restrictions are for -/

/-- the program's own change during `neco_start` replaces the handler of neco (and is undone at the end) -/
theorem C68_installed_not_general : ¬ ∀ w, Reach Any w → (w.th 0).pc = .run → ∀ n ∈ allowed ++ trapped, w.handler n = .neco := by
  intro h
  obtain ⟨w, h1, _, h2⟩ := witness anyB anyB_ok (up0 ++ [.sigaction 2 .ign]) (fun w => decide ((w.th 0).pc = .run ∧ w.handler 2 = .ign)) (by decide +kernel)
  obtain ⟨a, b⟩ := of_decide_eq_true h2
  have := h w h1 a 2 (by decide)
  rw [b] at this; cases this

/-- a write of a worker thread to a broken pipe: SIGPIPE is raised in the worker thread, where `rt` is null, and the handler dereferences it.
Nothing but a `neco_write` to a connection that the peer has closed is needed. -/
theorem C68_worker_not_general : ¬ ∀ w l w', Reach Any w → Steps Any w l w' → (∀ a ∈ l, ∃ t, a = .submit t 9 ∨ a = .wsignal t SIGPIPE) →
    w.sigfault = false → w'.sigfault = false := by
  intro h
  obtain ⟨w, h1, _, h2⟩ := witness anyB anyB_ok up0 (fun w => decide (w.sigfault = false) &&
    decide ((runActs w [.submit 0 9, .wsignal 0 SIGPIPE]).map (·.sigfault) = some true)) (by decide +kernel)
  simp only [Bool.and_eq_true, decide_eq_true_eq] at h2
  cases e : runActs w [.submit 0 9, .wsignal 0 SIGPIPE] with
  | none => rw [e] at h2; simp at h2
  | some w' =>
    rw [e] at h2
    simp only [Option.map_some, Option.some.injEq] at h2
    have := h w _ w' h1 (runActs_steps _ (fun _ _ _ => trivial) e) (by
      intro a ha
      simp only [List.mem_cons, List.not_mem_nil, or_false] at ha
      rcases ha with rfl | rfl
      · exact ⟨0, .inl rfl⟩
      · exact ⟨0, .inr rfl⟩) h2.1
    rw [h2.2] at this; cases this

/-- a thread of the program without a runtime gets a signal while the main thread is in `neco_start`: the same -/
theorem C68_thread_not_general : ¬ ∀ w t n, Reach Any w → w.sigfault = false → t ≠ 0 → (deliver w t n).sigfault = false := by
  intro h
  obtain ⟨w, h1, _, h2⟩ := witness anyB anyB_ok up0 (fun w => decide (w.sigfault = false ∧ (deliver w 1 15).sigfault = true)) (by decide +kernel)
  obtain ⟨a, b⟩ := of_decide_eq_true h2
  rw [h w 1 15 h1 a (by decide)] at b; cases b

/-- a signal during the tear-down: the stack of the handlers is freed before the handlers are replaced -/
theorem C68_teardown_not_general : ¬ ∀ w n, Reach Any w → w.sigfault = false → (w.th 0).rt ≠ none → (deliver w 0 n).sigfault = false := by
  intro h
  obtain ⟨w, h1, _, h2⟩ := witness anyB anyB_ok (up0 ++ [.endco 0 9] ++ down0.take 4)
    (fun w => decide (w.sigfault = false ∧ (w.th 0).rt.isSome = true ∧ (deliver w 0 13).sigfault = true)) (by decide +kernel)
  obtain ⟨a, c, b⟩ := of_decide_eq_true h2
  rw [h w 13 h1 a (fun e => by rw [e] at c; cases c)] at b; cases b

/-- afterwards: the main thread still has the freed memory as its alternate stack, and a handler of the program that wants one runs on it -/
theorem C68_after_not_general : ¬ ∀ w n, Reach Any w → w.sigfault = false → Outside w 0 → (deliver w 0 n).sigfault = false := by
  intro h
  obtain ⟨w, h1, _, h2⟩ := witness anyB anyB_ok (.sigaction 15 (.user 8 true) :: up0 ++ [.endco 0 9] ++ down0)
    (fun w => decide (w.sigfault = false ∧ (w.th 0).pc = .out ∧ (deliver w 0 15).sigfault = true)) (by decide +kernel)
  obtain ⟨a, c, b⟩ := of_decide_eq_true h2
  rw [h w 15 h1 a c] at b; cases b

/-- the alternate stack that the program had is not given back -/
theorem C68_altstack_not_general : ¬ ∀ w l w', Reach Any w → Steps Any w l w' → Outside w 0 → Outside w' 0 → (∀ t, Act.sigaltstack t ∉ l) →
    (w'.th 0).alt = (w.th 0).alt := by
  intro h
  obtain ⟨w, h1, _, h2⟩ := witness anyB anyB_ok [.sigaltstack 0] (fun w => decide ((w.th 0).pc = .out ∧ (w.th 0).alt = some 1) &&
    decide ((runActs w (up0 ++ [.endco 0 10] ++ down0)).map (fun w' => ((w'.th 0).pc, (w'.th 0).alt)) = some (.out, some 3))) (by decide +kernel)
  simp only [Bool.and_eq_true, decide_eq_true_eq] at h2
  cases e : runActs w (up0 ++ [.endco 0 10] ++ down0) with
  | none => rw [e] at h2; simp at h2
  | some w' =>
    rw [e] at h2
    simp only [Option.map_some, Option.some.injEq, Prod.mk.injEq] at h2
    have := h w _ w' h1 (runActs_steps _ (fun _ _ _ => trivial) e) h2.1.1 h2.2.1 (by simp [up0, down0])
    rw [h2.1.2, h2.2.2] at this; cases this

end Neco.Run
