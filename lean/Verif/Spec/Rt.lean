import Verif.Model.Rt
/-!
# Vocabulary used to state the properties of the runtime

The runtime model keeps a history `S.log` of what happened, newest event first.  Everything here is about
that history and about the moment a call returns to user code; nothing here looks inside the library.
-/
namespace Neco.Rt
open Neco.Err

/-- the next step of the execution makes call `c` of coroutine `i` return `v` to user code; `d` is what the
caller finds in its data buffer -/
def Returns (s : S) (i : Nat) (c : Call) (v : Int) (d : Msg) : Prop :=
  ∃ s', step s .tau = some s' ∧ s'.log = .ret i c v d :: s.log

/-- is this event a call by `j`? -/
def isCallOf (j : Nat) : Ev → Bool
  | .call i _ => i == j
  | _ => false

/-- the part of a history after the last call of `j` -/
def since (j : Nat) (l : List Ev) : List Ev := l.takeWhile (fun e => !isCallOf j e)

/-- the call coroutine `i` is in: made, and not returned yet -/
def pending (i : Nat) : List Ev → Option Call
  | [] => none
  | .call j c :: l => if j = i then some c else pending i l
  | .ret j _ _ _ :: l => if j = i then none else pending i l
  | _ :: l => pending i l

/-- `i` is the coroutine whose code runs now -/
def Running (s : S) (i : Nat) : Prop := s.sco.cur = some i
/-- `i` is scheduled to run -/
def Ready (s : S) (i : Nat) : Prop := i ∈ s.sco.runners ∨ i ∈ s.sco.yielders
/-- `i` sleeps until something wakes it -/
def Blocked (s : S) (i : Nat) : Prop := i ∈ s.sco.paused

/-- `i` is on the list of coroutines the main loop makes ready at the start of its next pass -/
def Waking (s : S) (i : Nat) : Prop := .co i ∈ s.lists .resumers
/-- `i` is inside `neco_cond_wait`, done waiting for the condition, and waits for the mutex (with no deadline) -/
def Relocking (s : S) (i : Nat) : Prop := (s.co i).pc = .blk .relock

/-- the deadline given to a call -/
def callDl : Call → Option Int
  | .sleep dl | .join _ dl | .suspend dl | .send _ _ dl | .recv _ dl | .select _ dl | .genYield _ dl | .lock _ dl | .rdlock _ dl
  | .wgWait _ dl | .cvWait _ _ dl | .cancel _ dl | .sigWait dl | .wait _ _ dl => some dl
  | _ => none

/-- a message handed to a receiver, by a send or a broadcast -/
def isDeliv : Ev → Bool
  | .take _ _ _ | .bcastTo _ _ _ => true
  | _ => false

/-- a message entering a channel, or leaving it again because its blocked sender gave up -/
def isPut : Ev → Bool
  | .put _ _ _ | .withdraw _ _ => true
  | _ => false

/-- a message handed to `i` -/
def delivTo (i : Nat) : Ev → Bool
  | .take _ r _ | .bcastTo _ r _ => r == i
  | _ => false

/-- a message of `i` entering a channel, or leaving it again because `i` gave up -/
def putBy (i : Nat) : Ev → Bool
  | .put _ k _ | .withdraw _ k => k == i
  | _ => false

/-- `e` happened after `r` -/
def After (r e : Ev) (l : List Ev) : Prop := ∃ a b, l = a ++ r :: b ∧ e ∈ a

/-- the channels of a select -/
def selCs : Call → Option (List Nat)
  | .select cs _ => some cs
  | .tryselect cs => some cs
  | _ => none

/-- the coroutines started and not exited, newest first -/
def live : List Ev → List Nat
  | [] => []
  | .start _ k :: l => k :: live l
  | .exit k :: l => (live l).filter (fun j => decide (j ≠ k))
  | _ :: l => live l

/-- the coroutines started, newest first -/
def starts : List Ev → List Nat
  | [] => []
  | .start _ k :: l => k :: starts l
  | _ :: l => starts l

/-- the last coroutine started by `i` -/
def lastChild (i : Nat) : List Ev → Option Nat
  | [] => none
  | .start (some p) k :: l => if p = i then some k else lastChild i l
  | _ :: l => lastChild i l

/-- take back the newest message of sender `i` -/
def unsend (i : Nat) (l : List (Nat × Msg)) : List (Nat × Msg) := (l.reverse.eraseP (fun e => e.1 == i)).reverse

/-- the messages channel `c` was given and that were neither taken nor withdrawn, with their senders, oldest
first, supposing that the oldest one is taken each time -/
def content (c : Nat) : List Ev → List (Nat × Msg)
  | [] => []
  | .put k i m :: l => if k = c then content c l ++ [(i, m)] else content c l
  | .take k _ _ :: l => if k = c then (content c l).tail else content c l
  | .withdraw k i :: l => if k = c then unsend i (content c l) else content c l
  | _ :: l => content c l

/-- the messages given to channel `c` and not withdrawn, with their senders, in order -/
def sent (c : Nat) : List Ev → List (Nat × Msg)
  | [] => []
  | .put k i m :: l => if k = c then sent c l ++ [(i, m)] else sent c l
  | .withdraw k i :: l => if k = c then unsend i (sent c l) else sent c l
  | _ :: l => sent c l

/-- the messages taken out of channel `c`, in order -/
def taken (c : Nat) : List Ev → List Msg
  | [] => []
  | .take k _ m :: l => if k = c then taken c l ++ [m] else taken c l
  | _ :: l => taken c l

/-- the capacities of the channels made so far, newest first (the channel of a generator has none) -/
def made : List Ev → List Nat
  | [] => []
  | .call _ (.chMake cap) :: l => cap :: made l
  | .call _ .genStart :: l => 0 :: made l
  | _ :: l => made l

/-- the calls that made the channels so far, newest first -/
def makers : List Ev → List Call
  | [] => []
  | .call _ (.chMake cap) :: l => .chMake cap :: makers l
  | .call _ .genStart :: l => .genStart :: makers l
  | _ :: l => makers l

/-- channel `c` is the one of a generator, made by `neco_gen_start` -/
def GenChan (c : Nat) (l : List Ev) : Prop := (makers l).reverse[c]? = some .genStart

/-- the channel of coroutine `i`, if it was started by `neco_gen_start` -/
def genOf (i : Nat) : List Ev → Option Nat
  | [] => none
  | .start p k :: l => if k = i then (match l with | .call q .genStart :: l' => if p = some q then some (makers l').length else none | _ => none) else genOf i l
  | _ :: l => genOf i l

/-- `i` is in a call that sends `m` on `c`: `neco_chan_send`, or `neco_gen_yield` of the generator whose
channel is `c` -/
def Sending (s : S) (i c : Nat) (m : Msg) : Prop :=
  (∃ dl, pending i s.log = some (.send c m dl)) ∨ (∃ dl, pending i s.log = some (.genYield m dl) ∧ (s.co i).gen = some c)

/-- `i` is in a call that receives from `c`, alone or among others -/
def Receiving (s : S) (i c : Nat) : Prop :=
  (∃ dl, pending i s.log = some (.recv c dl)) ∨ (∃ cs dl, pending i s.log = some (.select cs dl) ∧ c ∈ cs)

/-- No stale wake-up is pending when the running coroutine makes a call: it is in no wake-up list, no
background work of it is left, no expired deadline is recorded; and a coroutine record about to be
reused is not marked as canceled.  (The library does not ensure this: see the findings in DESIGN.md.) -/
def Clean (s : S) (a : Act) : Prop :=
  ∀ c i, a = .call c → s.sco.cur = some i →
    .co i ∉ s.lists .resumers ∧ .co i ∉ s.lists .iolist ∧ i ∉ s.jobs ∧ (s.co i).deadlined = false ∧
    (c = .start ∨ c = .genStart → ∀ p, s.pool.head? = some p → p.1.canceled = false)

/-- No wake-up of `i` is left over: it is in no wake-up list, no background work of it is left, no
expired deadline is recorded, and if it is marked as canceled then `neco_cancel` was called for it (the
mark was not left in a coroutine record that `i` reuses). -/
def NoStale (s : S) (i : Nat) : Prop :=
  .co i ∉ s.lists .resumers ∧ .co i ∉ s.lists .iolist ∧ i ∉ s.jobs ∧ (s.co i).deadlined = false ∧
    ((s.co i).canceled = true → ∃ k, .cancel k i ∈ s.log)

/-- States of any execution after a call of `i` that was made with no wake-up of `i` left over, and
before `i` makes another call.  Nothing is asked of the other coroutines, or of earlier calls of `i`. -/
inductive Fresh (i : Nat) : S → Prop
  | call {s s' : S} {c : Call} (r : Reach any s) (hi : s.sco.cur = some i) (hn : NoStale s i) (hs : step s (.call c) = some s') : Fresh i s'
  | step {s s' : S} {a : Act} (f : Fresh i s) (ha : ∀ c, a = .call c → s.sco.cur ≠ some i) (hs : step s a = some s') : Fresh i s'

/-- the values a call can return, according to the manual pages (plus `NECO_ERROR` from a select that was
woken without cause, see the findings in DESIGN.md) -/
def codes : Call → Int → Prop
  | .none, _ => False
  | .exit, _ => False
  | .sleep _, v => v = OK ∨ v = TIMEDOUT ∨ v = CANCELED
  | .join _ _, v => v = OK ∨ v = TIMEDOUT ∨ v = CANCELED ∨ v = PERM
  | .suspend _, v => v = OK ∨ v = TIMEDOUT ∨ v = CANCELED
  | .resume _, v => v = OK ∨ v = NOTFOUND ∨ v = NOTSUSPENDED
  | .getid, v | .lastid, v | .starterid, v | .chMake _, v => 0 ≤ v
  | .send _ _ _, v => v = OK ∨ v = TIMEDOUT ∨ v = CANCELED ∨ v = CLOSED
  | .genYield _ _, v => v = OK ∨ v = TIMEDOUT ∨ v = CANCELED ∨ v = CLOSED ∨ v = NOTGENERATOR
  | .bcast _ _, v => 0 ≤ v ∨ v = CLOSED
  | .recv _ _, v => v = OK ∨ v = TIMEDOUT ∨ v = CANCELED ∨ v = CLOSED
  | .tryrecv _, v => v = OK ∨ v = EMPTY ∨ v = CANCELED ∨ v = CLOSED
  | .close _, v => v = OK ∨ v = CLOSED
  | .select cs _, v => (0 ≤ v ∧ v < cs.length) ∨ v = TIMEDOUT ∨ v = CANCELED ∨ v = ERROR
  | .tryselect cs, v => (0 ≤ v ∧ v < cs.length) ∨ v = EMPTY ∨ v = CANCELED
  | .chCase _, v => v = OK ∨ v = CLOSED
  | .lock _ _, v | .rdlock _ _, v => v = OK ∨ v = TIMEDOUT ∨ v = CANCELED
  | .trylock _, v | .tryrdlock _, v => v = OK ∨ v = BUSY
  | .wgAdd _ _, v | .wgDone _, v => v = OK ∨ v = NEGWAITGRP
  | .wgWait _ _, v => v = OK ∨ v = TIMEDOUT ∨ v = CANCELED
  | .cvWait _ _ _, v => v = OK ∨ v = TIMEDOUT ∨ v = CANCELED
  | .cancel _ _, v => v = OK ∨ v = TIMEDOUT ∨ v = CANCELED ∨ v = NOTFOUND
  | .sigWatch _, v | .sigUnwatch _, v => v = OK ∨ v = INVAL
  | .sigWait _, v => 0 ≤ v ∨ v = TIMEDOUT ∨ v = CANCELED ∨ v = NOSIGWATCH
  | .wait _ _ _, v => v = OK ∨ v = TIMEDOUT ∨ v = CANCELED
  | .start, v | .genStart, v | .yield, v | .stats, v | .chRetain _, v | .chRelease _, v | .unlock _, v
  | .cvSignal _, v | .cvBcast _, v | .setType _, v | .setState _, v | .cpush _, v | .cpop _, v | .work, v => v = OK

/-- the calls that never wait: their result is settled when they are made -/
def imm : Call → Bool
  | .start | .genStart | .resume _ | .getid | .lastid | .starterid | .stats | .chMake _ | .chRetain _ | .chRelease _ | .tryrecv _
  | .chCase _ | .trylock _ | .tryrdlock _ | .wgAdd _ _ | .cvSignal _ | .setType _ | .setState _ | .cpush _ | .cpop _ | .sigWatch _
  | .sigUnwatch _ => true
  | _ => false

end Neco.Rt
