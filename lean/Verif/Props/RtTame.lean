import Verif.Proof.RtTame3
import Verif.Props.RtEx
import Verif.Props.RtBcast
import Verif.Props.RtCancel
import Verif.Props.RtChan
import Verif.Props.RtClose
import Verif.Props.RtEv
import Verif.Props.RtGen
import Verif.Props.RtLock
import Verif.Props.RtSelect
import Verif.Props.RtSig
import Verif.Props.RtSync
import Verif.Props.RtWait
/-!
# Coroutines that nobody cancels and that give no deadline to a select

The theorems for `Fresh i s` speak about calls made with no wake-up of the caller left over.  Here the
restriction is on the calls and cancelations alone (`Good i s.log`): nobody canceled `i`, and `i` gave no
deadline to `neco_chan_select` or `neco_cancel`; and the same holds of the coroutines that had ended when
`i` was started, whose control blocks `i` may reuse.  Nothing is asked of the coroutines that run beside
`i`.  Then no wake-up of `i` is ever left over (`C58_nothing_left`), so all those theorems apply; and with
no cancelation several of them become stronger.  These are the properties C58, C59 and C60.  In a program
that never calls `neco_cancel` and gives no deadline to a select, every coroutine is such
(`C58_tame`).  The last section shows what goes wrong without each part of the condition.
-/
namespace Neco.Rt
open Neco.Err

/-- no wake-up is left over when the coroutine makes a call -/
theorem C58_nothing_left {s s' : S} {i : Nat} {c : Call} (r : Reach any s) (g : Good i s.log) (hi : Running s i) (hs : step s (.call c) = some s') : NoStale s i :=
  ((reach_invGd r).co i g).1.noStale hs hi
/-- so the other theorems apply to each of its calls -/
theorem C58_fresh {s : S} {i : Nat} {c : Call} (r : Reach any s) (g : Good i s.log) (h : .call i c ∈ s.log) : Fresh i s := good_fresh r g h
/-- in a program that does not call `neco_cancel` and gives no deadline to a select, every coroutine is such -/
theorem C58_tame {s : S} (r : Reach Tame s) (i : Nat) : Good i s.log := tame_good r i

theorem Receiving.good {s : S} (r : Reach any s) {i c : Nat} (h : Receiving s i c) (g : Good i s.log) : Fresh i s := by
  rcases h with ⟨_, h⟩ | ⟨_, _, h, _⟩ <;> exact pending_good r h g
theorem Sending.good {s : S} (r : Reach any s) {i c : Nat} {m : Msg} (h : Sending s i c m) (g : Good i s.log) : Fresh i s := by
  rcases h with ⟨_, h⟩ | ⟨_, h, _⟩ <;> exact pending_good r h g

/-! ## Results -/

/-- no call returns `NECO_CANCELED` -/
theorem C58_never_canceled {s : S} (r : Reach any s) {i : Nat} (g : Good i s.log) {c : Call} {v : Int} {d : Msg} (h : Returns s i c v d) : v ≠ CANCELED := by
  intro hv
  obtain ⟨k, hk⟩ := (returns_ok (h.good r g) h).1 hv
  exact g.1.1 k hk
/-- a call returns `NECO_TIMEDOUT` only after its deadline -/
theorem C58_timedout {s : S} (r : Reach any s) {i : Nat} (g : Good i s.log) {c : Call} {d : Msg} (h : Returns s i c TIMEDOUT d) : ∃ dl, callDl c = some dl ∧ dl < s.clock :=
  C09_timedout_partial (h.good r g) h
/-- `neco_sleep` lasts as long as asked -/
theorem C58_sleep {s : S} (r : Reach any s) {i : Nat} (g : Good i s.log) {dl : Int} {d : Msg} {v : Int} (h : Returns s i (.sleep dl) v d) : dl < s.clock := by
  have hc := C58_never_canceled r g h
  by_cases hv : v = OK
  · subst hv; exact C08_sleep_ok_partial (h.good r g) h
  · by_cases ht : v = TIMEDOUT
    · subst ht; obtain ⟨dl', e, h2⟩ := C58_timedout r g h; cases e; exact h2
    · have := C56_codes r h
      simp [codes, hv, ht, hc] at this
/-- `neco_suspend` with no deadline returns only after a `neco_resume` -/
theorem C58_suspend {s : S} (r : Reach any s) {i : Nat} (g : Good i s.log) {dl : Int} {d : Msg} {v : Int} (h : Returns s i (.suspend dl) v d) :
    (v = OK ∧ ∃ k, .resume k i ∈ since i s.log) ∨ (v = TIMEDOUT ∧ dl < s.clock) := by
  have hc := C58_never_canceled r g h
  by_cases hv : v = OK
  · subst hv; exact .inl ⟨rfl, C05_suspend_ok_partial (h.good r g) h⟩
  · by_cases ht : v = TIMEDOUT
    · subst ht; obtain ⟨dl', e, h2⟩ := C58_timedout r g h; cases e; exact .inr ⟨rfl, h2⟩
    · have := C56_codes r h
      simp [codes, hv, ht, hc] at this
/-- `neco_join` returns `NECO_OK` only when its target, if it was ever started, has ended -/
theorem C58_join {s : S} (r : Reach any s) {i t : Nat} (g : Good i s.log) {dl : Int} {d : Msg} (h : Returns s i (.join t dl) OK d) {b : List Ev}
    (hb : s.log = since i s.log ++ .call i (.join t dl) :: b) (ht : t ∈ starts b) : t ∉ live s.log :=
  C06_join_ok_partial (h.good r g) h hb ht
/-- background work is done when `neco_work` returns -/
theorem C58_work {s : S} (r : Reach any s) {i : Nat} (g : Good i s.log) {v : Int} {d : Msg} (h : Returns s i .work v d) : .wdone i ∈ since i s.log :=
  C35_partial (h.good r g) h (fun k hk => g.1.1 k (mem_since hk))
/-- `neco_wait` returns `NECO_OK` only when the descriptor was reported ready -/
theorem C58_wait {s : S} (r : Reach any s) {i fd : Nat} (g : Good i s.log) {w : Bool} {dl : Int} {d : Msg} (h : Returns s i (.wait fd w dl) OK d) : .ready fd w i ∈ since i s.log :=
  C53_ok_partial (h.good r g) h

/-! ## Channels -/

/-- a receive returns the one message it was given, or finds the channel closed, or its deadline passed -/
theorem C59_recv {s : S} (r : Reach any s) {i c : Nat} (g : Good i s.log) {dl v : Int} {d : Msg} (h : Returns s i (.recv c dl) v d) :
    (v = OK ∧ ((since i s.log).filter (delivTo i) = [.take c i d] ∨ (since i s.log).filter (delivTo i) = [.bcastTo c i d])) ∨ v = CLOSED ∨ (v = TIMEDOUT ∧ dl < s.clock) := by
  have hc := C58_never_canceled r g h
  by_cases hv : v = OK
  · subst hv; exact .inl ⟨rfl, C12_recv_ok_partial (h.good r g) h⟩
  · by_cases ht : v = TIMEDOUT
    · subst ht; obtain ⟨dl', e, h2⟩ := C58_timedout r g h; cases e; exact .inr (.inr ⟨rfl, h2⟩)
    · have := C56_codes r h
      simp [codes, hv, ht, hc] at this
      exact .inr (.inl this)
/-- a receiver that was given a message returns it, unless its deadline passed -/
theorem C59_taker {s : S} (r : Reach any s) {i c k : Nat} (g : Good i s.log) {dl v : Int} {d m : Msg} (h : Returns s i (.recv c dl) v d) (hm : .take k i m ∈ since i s.log) :
    (v = OK ∧ k = c ∧ d = m) ∨ (v = TIMEDOUT ∧ dl < s.clock) := by
  rcases C13_taker_partial (h.good r g) h hm with h1 | h1 | h1
  · exact .inl h1
  · subst h1; obtain ⟨dl', e, h2⟩ := C58_timedout r g h; cases e; exact .inr ⟨rfl, h2⟩
  · exact absurd h1 (C58_never_canceled r g h)
/-- a blocked sender means a full channel with no blocked receiver -/
theorem C59_sender_blocked {s : S} (r : Reach any s) (hf : s.fault = false) {i c : Nat} (g : Good i s.log) {m : Msg} (hb : Blocked s i) (hw : ¬ Waking s i) (hp : Sending s i c m) :
    (∃ cap, (made s.log).reverse[c]? = some cap ∧ cap < (content c s.log).length) ∧ ∀ j, Good j s.log → Blocked s j → ¬ Waking s j → ¬ Receiving s j c :=
  let h := C14_send_partial hf (hp.good r g) hb hw hp
  ⟨h.1, fun j gj h1 h2 h3 => h.2 j (h3.good r gj) h1 h2 h3⟩
/-- a blocked receiver means an empty channel -/
theorem C59_receiver_blocked {s : S} (r : Reach any s) (hf : s.fault = false) {i c : Nat} (g : Good i s.log) (hb : Blocked s i) (hw : ¬ Waking s i) (hp : Receiving s i c) : content c s.log = [] :=
  C14_recv_partial hf (hp.good r g) hb hw hp
/-- a receive from a channel that holds a message returns the oldest one -/
theorem C59_waiting_message {s : S} (r : Reach any s) {i c k : Nat} (g : Good i s.log) {cl : Call} {v : Int} {d m : Msg} {b : List Ev} {rest : List (Nat × Msg)}
    (h : Returns s i cl v d) (hb : s.log = since i s.log ++ .call i cl :: b) (hcl : (∃ dl, cl = .recv c dl) ∨ cl = .tryrecv c)
    (hm : content c b = (k, m) :: rest) : v = OK ∧ d = m :=
  (C15_accepted r h hb hcl hm).resolve_right (C58_never_canceled r g h)
/-- a send that returns `NECO_OK` put its message into the channel, once -/
theorem C59_send_ok {s : S} (r : Reach any s) {i c : Nat} (g : Good i s.log) {m d : Msg} {dl : Int} (h : Returns s i (.send c m dl) OK d) :
    (since i s.log).filter (putBy i) = [.put c i m] :=
  C12_send_ok_partial (h.good r g) h
/-- a select that does not wait takes the first channel that has something; one that waits is woken with at most one message, from the channel it returns -/
theorem C59_select {s : S} (r : Reach any s) {i : Nat} (g : Good i s.log) {cs : List Nat} {dl v : Int} {d : Msg} (h : Returns s i (.select cs dl) v d) (hv : 0 ≤ v) :
    ∃ c, cs[v.toNat]? = some c ∧ ((since i s.log).filter (delivTo i) = [] ∨
      ∃ m, (since i s.log).filter (delivTo i) = [.take c i m] ∨ (since i s.log).filter (delivTo i) = [.bcastTo c i m]) :=
  C17_one_partial (h.good r g) h hv

/-! ## Mutexes, conditions, wait groups -/

/-- `neco_cond_wait` returns with the mutex held -/
theorem C60_cond {s : S} (r : Reach any s) {i v m : Nat} (g : Good i s.log) {dl x : Int} {d : Msg} (h : Returns s i (.cvWait v m dl) x d) : (i, false) ∈ holders m s.log :=
  (C28_partial (h.good r g) h).resolve_right (fun h1 => C58_never_canceled r g h h1.1)
/-- a lock that returns `NECO_OK` holds the mutex -/
theorem C60_lock {s : S} (r : Reach any s) {i m : Nat} (g : Good i s.log) {rd : Bool} {c : Call} {d : Msg} (h : Returns s i c OK d) (hc : c.takes m rd) : (i, rd) ∈ holders m s.log :=
  C21_lock_ok_partial (h.good r g) h hc
/-- nobody who asked later gets the mutex while an earlier one waits -/
theorem C60_fifo {s s' : S} (r : Reach any s) {a : Act} (hs : step s a = some s') {es : List Ev} (hl : s'.log = es ++ s.log) {m i j : Nat} (g : Good j s.log) {rd rj : Bool}
    (hj : Awaits s m j rj) (hg : .grant m i rd ∈ es) :
    (i, rd) ∈ queue s m ∧ ((∃ dl, pending i s.log = some (lockCall m rd dl)) → CalledBefore j i s.log → .grant m j rj ∈ es) :=
  C22_fifo_partial hs hl (pending_good r hj.2.choose_spec g) hj hg
/-- whoever waits for a mutex waits for someone who holds it -/
theorem C60_someone_holds {s : S} (r : Reach any s) (hd : Disciplined s.log) {m i : Nat} (g : Good i s.log) {rd : Bool} (h : Awaits s m i rd) : holders m s.log ≠ [] :=
  C23_held_partial hd (pending_good r h.2.choose_spec g) h
/-- `neco_waitgroup_wait` returns `NECO_OK` only if the counter was zero during the call -/
theorem C60_waitgroup {s : S} (r : Reach any s) {i w : Nat} (g : Good i s.log) {dl : Int} {x : Msg} {b : List Ev} (h : Returns s i (.wgWait w dl) OK x)
    (hb : s.log = since i s.log ++ .call i (.wgWait w dl) :: b) : ∃ x y, since i s.log = x ++ y ∧ wgCount w (y ++ .call i (.wgWait w dl) :: b) = 0 :=
  C25_wait_partial (h.good r g) h hb
/-- a coroutine that was told about a signal returns it, unless its deadline passed or it watches nothing -/
theorem C60_signal {s : S} (r : Reach any s) {i n : Nat} (g : Good i s.log) {dl v : Int} {d : Msg} (h : Returns s i (.sigWait dl) v d) (ht : .sigTo n i ∈ since i s.log) :
    v = n ∨ (v = TIMEDOUT ∧ dl < s.clock) ∨ v = NOSIGWATCH := by
  rcases C34_told_partial (h.good r g) h ht with h1 | h1 | h1
  · exact .inl h1
  · exact absurd h1.1 (C58_never_canceled r g h)
  · exact .inr h1

/-! ## Executions that meet the condition -/

/-- `Tame` as a test -/
def tameB (_ : S) : Act → Bool
  | .call (.cancel _ _) => false
  | .call (.select _ dl) => decide (MAX ≤ dl)
  | _ => true
theorem tameB_tame {s : S} {a : Act} (h : tameB s a = true) : Tame s a := by
  intro c e
  subst e
  constructor
  · rintro id dl rfl; simp [tameB] at h
  · rintro cs dl rfl; simpa [tameB] using h
/-- a deadline passes in a program that never cancels -/
example : ∃ s, Reach Tame s ∧ Returns s 2 (.recv 0 5) TIMEDOUT 0 := by
  obtain ⟨s, r, h⟩ := scriptW (okB := tameB) (fun _ _ => tameB_tame) (a := false) (e := true)
    (l := [.on 1 (.call (.chMake 0)), .on 1 (.call .start), .on 2 (.call (.recv 0 5)), .on 1 (.call .yield), .raw (.clock 2000)]) (p := fun s => returnsB s 2 (.recv 0 5) TIMEDOUT 0) (by decide +kernel)
  exact ⟨s, r, returnsB_iff.mp h⟩

/-- `plainCall`, `Plain` and `Good` as tests -/
def plainCallB : Call → Bool
  | .cancel _ dl => decide (MAX ≤ dl)
  | .select _ dl => decide (MAX ≤ dl)
  | _ => true
def plainB (i : Nat) (l : List Ev) : Bool :=
  l.all (fun e => match e with | .cancel _ k => k != i | .call k c => k != i || plainCallB c | _ => true)
def endsB (i : Nat) (l : List Ev) : List Ev → Bool
  | [] => true
  | .start _ k :: b => (k != i || b.all (fun e => match e with | .exit k => plainB k l | _ => true)) && endsB i l b
  | _ :: b => endsB i l b
def goodB (i : Nat) (l : List Ev) : Bool := plainB i l && endsB i l l
theorem plainB_ok {i : Nat} {l : List Ev} (h : plainB i l = true) : Plain i l := by
  unfold plainB at h
  rw [List.all_eq_true] at h
  refine ⟨fun k hk => by have := h _ hk; simp at this, fun c hc => ?_⟩
  have := h _ hc
  simp at this
  constructor
  · rintro id dl rfl; simpa [plainCallB] using this
  · rintro cs dl rfl; simpa [plainCallB] using this
theorem endsB_cons {i : Nat} {l b : List Ev} {e : Ev} (h : endsB i l (e :: b) = true) : endsB i l b = true := by
  unfold endsB at h; split at h
  · cases ‹_ :: _ = []›
  · rename_i e'; cases e'; simp at h; exact h.2
  · rename_i e'; cases e'; exact h
theorem endsB_ok {i : Nat} {l : List Ev} (h : endsB i l l = true) : ∀ k, EndedBefore k i l → Plain k l := by
  rintro k ⟨a, b, p, e, hx⟩
  have key : ∀ l0 a, l0 = a ++ .start p i :: b → endsB i l l0 = true → Plain k l := by
    intro l0 a e h
    subst e
    induction a with
    | nil =>
      simp only [List.nil_append, endsB, Bool.and_eq_true] at h
      have := h.1
      simp at this
      exact plainB_ok (by simpa using this _ hx)
    | cons x a ih => exact ih (endsB_cons h)
  exact key l a e h
theorem goodB_ok {i : Nat} {l : List Ev} (h : goodB i l = true) : Good i l := by
  unfold goodB at h; rw [Bool.and_eq_true] at h
  exact ⟨plainB_ok h.1, endsB_ok h.2⟩
/-- no cancelation and no select with a deadline in the history -/
def tameLogB (l : List Ev) : Bool :=
  l.all (fun e => match e with | .cancel _ _ => false | .call _ (.select _ dl) => decide (MAX ≤ dl) | _ => true)
/-- go on until a call of a good coroutine returns -/
theorem retG (l : List Sc) {i : Nat} {c : Call} {v : Int} {d : Msg}
    (h : (script (fun _ _ => true) (l ++ [.til (fun s => returnsB s i c v d && goodB i s.log && !tameLogB s.log)]) (init false true)).any (fun s => returnsB s i c v d && goodB i s.log && !tameLogB s.log) = true) :
    ∃ s, Reach any s ∧ Good i s.log ∧ Returns s i c v d ∧ tameLogB s.log = false := by
  obtain ⟨s, r, h⟩ := scriptA l h
  simp only [Bool.and_eq_true, Bool.not_eq_true'] at h
  exact ⟨s, r, goodB_ok h.1.2, returnsB_iff.mp h.1.1, h.2⟩

/-- coroutines 3 and 4 are canceled, 4 inside a select with a deadline; 1 does the canceling; 2 is started between them -/
def rough : List Sc := [.on 1 (.call (.chMake 0)), .on 1 (.call (.chMake 0)), .on 1 (.call .start), .on 2 (.call .yield), .on 1 (.call .start), .on 3 (.call (.sleep MAX)), .on 1 (.call .start),
  .on 4 (.call (.select [1] 100000)), .on 1 (.call (.cancel 4 MAX)), .on 1 (.call (.cancel 3 MAX)), .on 4 (.call .yield)]
/-- a receive that waits gets a message -/
example : ∃ s, Reach any s ∧ Good 2 s.log ∧ Returns s 2 (.recv 0 MAX) OK 9 ∧ tameLogB s.log = false :=
  retG (rough ++ [.on 2 (.call (.recv 0 MAX)), .on 1 (.call (.send 0 9 MAX))]) (by decide +kernel)
/-- a deadline passes -/
example : ∃ s, Reach any s ∧ Good 2 s.log ∧ Returns s 2 (.recv 0 5000) TIMEDOUT 0 ∧ tameLogB s.log = false :=
  retG (rough ++ [.on 2 (.call (.recv 0 5000)), .on 1 (.call .yield), .raw (.clock 9000)]) (by decide +kernel)
/-- a sleep, a suspension, background work, a wait for another's end, a lock, a wait for a condition, for a wait group and for a signal end -/
example : ∃ s, Reach any s ∧ Good 2 s.log ∧ Returns s 2 (.sleep 5000) OK 0 ∧ tameLogB s.log = false :=
  retG (rough ++ [.on 2 (.call (.sleep 5000)), .on 1 (.call .yield), .raw (.clock 9000)]) (by decide +kernel)
example : ∃ s, Reach any s ∧ Good 2 s.log ∧ Returns s 2 (.suspend MAX) OK 0 ∧ tameLogB s.log = false :=
  retG (rough ++ [.on 2 (.call (.suspend MAX)), .on 1 (.call (.resume 2))]) (by decide +kernel)
example : ∃ s, Reach any s ∧ Good 2 s.log ∧ Returns s 2 .work OK 0 ∧ tameLogB s.log = false :=
  retG (rough ++ [.on 2 (.call .work), .raw (.submit true), .til (fun s => s.jobs.contains 2), .raw (.wdone 2)]) (by decide +kernel)
example : ∃ s, Reach any s ∧ Good 2 s.log ∧ Returns s 2 (.join 3 MAX) OK 0 ∧ tameLogB s.log = false :=
  retG (rough ++ [.on 2 (.call (.join 3 MAX)), .on 3 .finish]) (by decide +kernel)
example : ∃ s, Reach any s ∧ Good 2 s.log ∧ Returns s 2 (.lock 0 MAX) OK 0 ∧ tameLogB s.log = false :=
  retG (rough ++ [.on 1 (.call (.lock 0 MAX)), .on 2 (.call (.lock 0 MAX)), .on 1 (.call (.unlock 0))]) (by decide +kernel)
example : ∃ s, Reach any s ∧ Good 2 s.log ∧ Returns s 2 (.cvWait 0 0 MAX) OK 0 ∧ tameLogB s.log = false :=
  retG (rough ++ [.on 2 (.call (.lock 0 MAX)), .on 2 (.call (.cvWait 0 0 MAX)), .on 1 (.call (.cvSignal 0))]) (by decide +kernel)
example : ∃ s, Reach any s ∧ Good 2 s.log ∧ Returns s 2 (.wgWait 0 MAX) OK 0 ∧ tameLogB s.log = false :=
  retG (rough ++ [.on 1 (.call (.wgAdd 0 1)), .on 2 (.call (.wgWait 0 MAX)), .on 1 (.call (.wgDone 0))]) (by decide +kernel)
example : ∃ s, Reach any s ∧ Good 2 s.log ∧ Returns s 2 (.select [0, 1] MAX) 0 0 ∧ tameLogB s.log = false :=
  retG (rough ++ [.on 2 (.call (.select [0, 1] MAX)), .on 1 (.call (.send 0 4 MAX))]) (by decide +kernel)
/-- a good coroutine may itself cancel others -/
example : ∃ s, Reach any s ∧ Good 2 s.log ∧ Returns s 2 (.cancel 4 MAX) OK 0 ∧ tameLogB s.log = false :=
  retG (rough ++ [.on 3 (.call (.setState false)), .on 3 (.call .yield), .on 2 (.call (.cancel 3 MAX)), .on 3 .finish, .on 2 (.call (.cancel 4 MAX))]) (by decide +kernel)

/-- the program never calls `neco_cancel` (but may give a deadline to a select) -/
def NoCancel (_ : S) (a : Act) : Prop := ∀ id dl, a ≠ .call (.cancel id dl)
def noCancelB (_ : S) : Act → Bool
  | .call (.cancel _ _) => false
  | _ => true
theorem noCancelB_ok {s : S} {a : Act} (h : noCancelB s a = true) : NoCancel s a := by
  rintro id dl rfl; simp [noCancelB] at h

/-- the select of 2 runs into its deadline, and before 2 runs the channel is closed: 2 is left in the wake-up list -/
def selDl : List Sc := [.on 1 (.call (.chMake 0)), .on 1 (.call .start), .on 2 (.call (.select [0] 5)), .on 1 (.call .yield), .raw (.clock 2000), .til (fun s => s.sco.runners.contains 2), .on 1 (.call (.close 0))]

/-- without the condition on selects a wake-up can be left over, even if nothing is ever canceled -/
theorem C58_nothing_left_not_general : ¬ ∀ (s s' : S) (i : Nat) (c : Call), Reach NoCancel s → Running s i → step s (.call c) = some s' → NoStale s i := by
  intro h
  obtain ⟨s, r, hp⟩ := scriptW (okB := noCancelB) (fun _ _ => noCancelB_ok) (a := false) (e := true) (l := selDl)
    (p := fun s => turn 2 s && (step s (.call .getid)).isSome && (s.lists .resumers).contains (.co 2)) (by decide +kernel)
  simp only [Bool.and_eq_true, turn, beq_iff_eq, List.contains_eq_mem, decide_eq_true_eq] at hp
  obtain ⟨⟨⟨h1, _⟩, h3⟩, h4⟩ := hp
  obtain ⟨s', hs⟩ := Option.isSome_iff_exists.mp h3
  exact (h s s' 2 _ r h1 hs).1 h4

/-- and its next `neco_suspend` returns though nobody resumed it -/
theorem C58_suspend_not_general : ¬ ∀ (s : S) (i : Nat) (dl : Int) (d : Msg), Reach NoCancel s → Returns s i (.suspend dl) OK d → ∃ k, .resume k i ∈ since i s.log := by
  intro h
  obtain ⟨s, r, hp⟩ := scriptW (okB := noCancelB) (fun _ _ => noCancelB_ok) (a := false) (e := true) (l := selDl ++ [.on 2 (.call (.suspend MAX))])
    (p := fun s => returnsB s 2 (.suspend MAX) OK 0 && (since 2 s.log).all (fun e => match e with | .resume _ _ => false | _ => true)) (by decide +kernel)
  simp only [Bool.and_eq_true] at hp
  obtain ⟨k, hk⟩ := h s 2 _ 0 r (returnsB_iff.mp hp.1)
  have := List.all_eq_true.mp hp.2 _ hk
  simp at this

/-- without the condition on those that ended before, a coroutine that nobody canceled is told that it was: it runs in the
control block of one that was canceled and ended before it was told -/
theorem C58_reuse_not_general : ¬ ∀ (s : S) (i : Nat) (c : Call) (v : Int) (d : Msg), Reach any s → Plain i s.log → Returns s i c v d → v ≠ CANCELED := by
  intro h
  obtain ⟨s, r, hp⟩ := scriptA [.on 1 (.call .start), .on 2 (.call .yield), .on 1 (.call (.cancel 2 MAX)), .on 2 .finish, .on 1 (.call .start), .on 3 (.call (.sleep 100))]
    (p := fun s => returnsB s 3 (.sleep 100) CANCELED 0 && plainB 3 s.log) (by decide +kernel)
  simp only [Bool.and_eq_true] at hp
  exact h s 3 _ _ _ r (plainB_ok hp.2) (returnsB_iff.mp hp.1) rfl

end Neco.Rt
