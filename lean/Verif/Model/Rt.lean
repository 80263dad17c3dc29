import Verif.Model.Sco
import Verif.Model.Err
/-!
# The integrated neco runtime as a transition system

One state `S` for the whole runtime, one function `step : S → Act → Option S`.  The environment chooses the
actions: which API call the running coroutine makes next, when its function returns, how the clock advances,
which signals arrive, which background job ends, which descriptors become ready.  A theorem about all
reachable states therefore covers every program using the modelled API, every schedule the code can produce
and every timing.

Every coroutine has a program counter `pc` telling where inside the current API call it is.  The code between
two context switches is executed by one or more `tau` steps (the environment may act between them, which
only adds behaviours: in C nothing but the clock, signal handlers and worker threads can).

Simplifications (all that are not mentioned at a definition):
* allocation does not fail; arguments are not NULL; objects are used on the thread that made them;
* messages are opaque values of type `Int`; ring buffers are lists (`Verif.Props.Ring` proves the ring code
  implements that list), intrusive queues are lists (`Verif.Props.Colist`), maps are sets (`Verif.Props.Maps`);
* a freed channel identifier is not reused (`Verif.Props.Ring` treats the pool of channels);
* cleanup handlers are opaque and do not call the API;
* the write-only counters `njoinlist`, `ncancellist`, `ndeadlines`, `ntotal` are omitted (`ndeadlines` only
  selects the sleep time, see `Verif.Props.Arith`).
-/
namespace Neco.Rt
open Neco.Err

/-- a message -/
abbrev Msg := Int

/-- `INT64_MAX`: no deadline -/
def MAX : Int := 9223372036854775807

/-- names of the intrusive lists a coroutine (or select case) can be linked into -/
inductive LName
  /-- `chan->queue`, neco.c 5725 -/
  | chanQ (c : Nat)
  /-- `mutex->queue`, neco.c 7084 -/
  | muQ (m : Nat)
  /-- `waitgroup->queue`, neco.c 7342 -/
  | wgQ (w : Nat)
  /-- `cond->queue`, neco.c 7491 -/
  | cvQ (v : Nat)
  /-- `co->joinlist`, neco.c 3359 -/
  | joinQ (i : Nat)
  /-- `co->cancellist`, neco.c 3356 -/
  | cancelQ (i : Nat)
  /-- `rt->resumers`, neco.c 3593 -/
  | resumers
  /-- `rt->sigwaiters`, neco.c 3607 -/
  | sigQ
  /-- `rt->iolist`, neco.c 3628 -/
  | iolist
deriving DecidableEq, Repr

/-- what can be linked: a coroutine, or the `idx`-th case of the select a coroutine is in
(`struct coselectcase`, neco.c 5736-5747) -/
inductive Node
  | co (i : Nat)
  | case (i : Nat) (idx : Nat)
deriving DecidableEq, Repr

/-- the coroutine a node stands for -/
def Node.owner : Node → Nat
  | .co i => i
  | .case i _ => i

/-- the API calls modelled -/
inductive Call
  | none
  /-- `neco_start`/`neco_startv`; `neco_gen_start` -/
  | start | genStart
  | yield
  | sleep (dl : Int)
  | join (id : Nat) (dl : Int)
  | suspend (dl : Int)
  | resume (id : Nat)
  | exit
  | getid | lastid | starterid | stats
  | chMake (cap : Nat) | chRetain (c : Nat) | chRelease (c : Nat)
  | send (c : Nat) (m : Msg) (dl : Int)
  | bcast (c : Nat) (m : Msg)
  | recv (c : Nat) (dl : Int)
  | tryrecv (c : Nat)
  | close (c : Nat)
  | select (cs : List Nat) (dl : Int)
  | tryselect (cs : List Nat)
  | chCase (c : Nat)
  | genYield (m : Msg) (dl : Int)
  | lock (m : Nat) (dl : Int) | rdlock (m : Nat) (dl : Int)
  | trylock (m : Nat) | tryrdlock (m : Nat) | unlock (m : Nat)
  | wgAdd (w : Nat) (delta : Int) | wgDone (w : Nat) | wgWait (w : Nat) (dl : Int)
  | cvSignal (v : Nat) | cvBcast (v : Nat) | cvWait (v m : Nat) (dl : Int)
  | cancel (id : Nat) (dl : Int)
  | setType (async : Bool) | setState (enabled : Bool)
  | cpush (h : Nat) | cpop (execute : Bool)
  | sigWatch (n : Nat) | sigUnwatch (n : Nat) | sigWait (dl : Int)
  | wait (fd : Nat) (write : Bool) (dl : Int)
  | work
deriving DecidableEq, Repr

/-- the calls whose wrapper uses `async_error_guard` (neco.c 3466-3474) rather than `error_guard` -/
def Call.guarded : Call → Bool
  | .sleep _ | .join _ _ | .suspend _ | .send _ _ _ | .recv _ _ | .tryrecv _ | .select _ _ | .tryselect _
  | .genYield _ _ | .lock _ _ | .rdlock _ _ | .trylock _ | .tryrdlock _ | .wgWait _ _ | .cvWait _ _ _
  | .cancel _ _ | .sigWait _ | .wait _ _ _ => true
  | _ => false

/-- what remains to be done after a number of `coyield()`s -/
inductive Aft
  /-- return this value -/
  | ret (v : Int)
  /-- `cond_wait_dl` after releasing the mutex, neco.c 7609 -/
  | condEnq
  /-- `coexit` after closing the generator, neco.c 7749 -/
  | genRel (sched async : Bool)
  /-- `coexit` from neco.c 7753 on -/
  | exitTail (sched async : Bool)
  /-- the end of `coexit`, neco.c 7760, and of `sco_entry` -/
  | fin (async : Bool)
deriving DecidableEq, Repr

/-- the places where a coroutine calls `copause` -/
inductive Blk
  | sleep | send | recv | sel | lock (rd : Bool) | relock | wg | cond | join | cancel | susp | sig | wait
deriving DecidableEq, Repr

/-- program counter of a coroutine -/
inductive Pc
  /-- running user code -/
  | user
  /-- about to return `v` from the current call (through the error guard) -/
  | ret (v : Int)
  /-- back from a `sco_yield()` inside `coyield()`; `n` more `coyield()`s follow, then `a` -/
  | yck (n : Nat) (a : Aft)
  /-- about to `coyield()` `n+1` times -/
  | yld (n : Nat) (a : Aft)
  /-- continue with `a` -/
  | go (a : Aft)
  /-- `chan_select`: the receive on the ready channel number `idx` returned `v`, neco.c 6275-6277 -/
  | selGot (idx : Nat) (c : Nat) (v : Int)
  /-- inside (`paused`) or right after the `copause` of this place -/
  | blk (b : Blk)
  /-- top of the loop of `cancel_dl`, neco.c 4646 -/
  | cancelTry
  /-- the loop `while (mutex_fastlock(..) != NECO_OK)` of `cond_wait_dl`, neco.c 7616 -/
  | relock
  /-- about to `worker_submit`, neco.c 8731 -/
  | workTry
  /-- inside the `sco_pause` of `neco_work`, neco.c 8734 -/
  | workWait
  /-- `coexit(async)`, neco.c 7715 -/
  | exitRun (async : Bool)
  /-- finished -/
  | dead
deriving DecidableEq, Repr

/-- `struct coroutine`, neco.c 3323-3375, plus the local variables that survive a context switch -/
structure Co where
  pc : Pc := .user
  /-- ghost: the call being executed -/
  call : Call := .none
  /-- the caller's buffer for received data -/
  rdat : Msg := 0
  /-- `cond_wait_dl`'s `ret` while it relocks -/
  sav : Int := 0
  /-- `chan_selectv_dl`'s `ret_idx` -/
  retIdx : Int := -1
  paused : Bool := false
  deadline : Int := 0
  canceled : Bool := false
  deadlined : Bool := false
  suspended : Bool := false
  rlocked : Bool := false
  cclosed : Bool := false
  /-- `canceltype == NECO_CANCEL_ASYNC` -/
  async : Bool := true
  /-- `cancelstate == NECO_CANCEL_ENABLE` -/
  enabled : Bool := true
  lastid : Nat := 0
  starterid : Nat := 0
  /-- the message `cmsg` points to, when sending -/
  smsg : Msg := 0
  sigwatch : Nat := 0
  sigmask : Nat := 0
  /-- the cleanup stack, top first -/
  cleanup : List Nat := []
  gen : Option Nat := none
  /-- which control block (`struct coroutine`) it is: the identifier of the coroutine it was allocated for
  by `coroutine_new`, neco.c 3743-3760 -/
  blk : Nat := 0
deriving DecidableEq, Repr

/-- `struct neco_chan`, neco.c 5718-5731 (the queue is `LName.chanQ`) -/
structure Chan where
  rc : Int := 0
  sclosed : Bool := false
  rclosed : Bool := false
  qrecv : Bool := false
  lok : Bool := false
  cap : Nat := 0
  /-- the messages in the ring buffer, oldest first -/
  buf : List Msg := []
  /-- the extra slot used by select, neco.c 6341 -/
  lmsg : Msg := 0
deriving DecidableEq, Repr

/-- `struct neco_mutex`, neco.c 7082-7087 -/
structure Mu where
  locked : Bool := false
  rlocked : Nat := 0
deriving DecidableEq, Repr

/-- `neco_stats`, neco.c 5669-5680 -/
structure Stats where
  coroutines : Int
  sleepers : Int
  evwaiters : Int
  sigwaiters : Int
  senders : Int
  receivers : Int
  locked : Int
  waitgroupers : Int
  condwaiters : Int
  suspended : Int
deriving DecidableEq, Repr

/-- events of the history, used only to state properties (nothing in the model reads the log) -/
inductive Ev
  /-- coroutine `i` calls `c` -/
  | call (i : Nat) (c : Call)
  /-- call `c` of coroutine `i` returns `v`; `d` is the caller's data buffer -/
  | ret (i : Nat) (c : Call) (v : Int) (d : Msg)
  /-- `p` (`none`: the outermost start) started `i` -/
  | start (p : Option Nat) (i : Nat)
  /-- coroutine `i` leaves user code for good: its cleanup handlers have run and it is no longer known -/
  | exit (i : Nat)
  /-- coroutine `i` ran the cleanup handler `h` -/
  | clean (i : Nat) (h : Nat)
  /-- `i` canceled `t` -/
  | cancel (i t : Nat)
  /-- a message of sender `i` enters channel `c` (is buffered, offered by blocking, or handed over) -/
  | put (c i : Nat) (m : Msg)
  /-- receiver `r` takes a message out of channel `c` -/
  | take (c r : Nat) (m : Msg)
  /-- blocked sender `i` gives up -/
  | withdraw (c i : Nat)
  /-- a broadcast on `c` hands `m` to `r` -/
  | bcastTo (c r : Nat) (m : Msg)
  /-- the lock of `m` is given to `i` -/
  | grant (m i : Nat) (rd : Bool)
  /-- `i` releases the lock of `m` -/
  | release (m i : Nat)
  /-- `i` is taken out of the queue `L` and made ready by the operation it waited for -/
  | wake (L : LName) (i : Nat)
  /-- `i` finds what it would wait for in the queue `L` already there, and does not wait -/
  | nowait (L : LName) (i : Nat)
  /-- `neco_resume` by `i` of the suspended `t` -/
  | resume (i t : Nat)
  /-- the system reports the descriptor `i` waits for -/
  | ready (fd : Nat) (wr : Bool) (i : Nat)
  /-- an asynchronous cancelation terminates `i`: at a cancelation point, or (`y`) at a yield -/
  | kill (i : Nat) (y : Bool)
  /-- background work of `i` is done -/
  | wdone (i : Nat)
  /-- signal arrived / delivered to `i` -/
  | sig (n : Nat)
  | sigTo (n i : Nat)
  /-- statistics read by `i` -/
  | stats (i : Nat) (st : Stats)
  /-- the outermost start returned -/
  | halt
deriving DecidableEq, Repr

/-- where the main loop is, neco.c 4277-4283 and 4159-4237.  Anything but `top` only while no coroutine
runs. -/
inductive MPc | top | io | ev | sig | dl | rc | go | done
deriving DecidableEq, Repr

/-- `struct runtime` (neco.c 3570-3633), the sco variables, the synchronisation objects and the clock -/
structure S where
  sco : Sco := {}
  co : Nat → Co := fun _ => {}
  lists : LName → List Node := fun _ => []
  chan : Nat → Option Chan := fun _ => none
  nchan : Nat := 0
  mu : Nat → Mu := fun _ => {}
  wg : Nat → Int := fun _ => 0
  /-- `rt->all` -/
  all : List Nat := []
  allCount : Int := 0
  /-- `rt->deadlines`, in order -/
  dlq : List Nat := []
  /-- `rt->evwaiters`: descriptor, direction (true = write), coroutine, in order of coroutine -/
  evw : List (Nat × Bool × Nat) := []
  /-- the kernel's epoll registration: armed for reading, armed for writing -/
  armed : Nat → Bool × Bool := fun _ => (false, false)
  nsleepers : Int := 0
  nlocked : Int := 0
  nreceivers : Int := 0
  nsenders : Int := 0
  nwaitgroupers : Int := 0
  ncondwaiters : Int := 0
  nsuspended : Int := 0
  nevwaiters : Int := 0
  nsigwaiters : Int := 0
  nresumers : Int := 0
  niowaiters : Int := 0
  /-- `rt->pool` with `pool_ts` -/
  pool : List (Co × Int) := []
  sigqueue : Nat → Nat := fun _ => 0
  sigwatchers : Nat → Int := fun _ => 0
  /-- work accepted by the background threads and not finished, by coroutine -/
  jobs : List Nat := []
  clock : Int := 1
  main : MPc := .top
  /-- `env_canceltype == NECO_CANCEL_ASYNC` -/
  envAsync : Bool := true
  /-- `env_cancelstate == NECO_CANCEL_ENABLE` -/
  envEnabled : Bool := true
  /-- the process was killed by a signal -/
  dead : Bool := false
  /-- undefined behaviour happened -/
  fault : Bool := false
  /-- history, newest first -/
  log : List Ev := []

/-! ## Primitives -/

/-- change the record of one coroutine -/
def upd (s : S) (i : Nat) (f : Co → Co) : S :=
  { s with co := fun j => if j = i then f (s.co i) else s.co j }

def setPc (s : S) (i : Nat) (p : Pc) : S := upd s i (fun c => { c with pc := p })

/-- append to the history -/
def note (s : S) (e : Ev) : S := { s with log := e :: s.log }

/-- `remove_from_list`, neco.c 3280-3286: from whatever list it is in -/
def rm (s : S) (n : Node) : S := { s with lists := fun L => (s.lists L).filter (fun x => decide (x ≠ n)) }

def setList (s : S) (L : LName) (l : List Node) : S :=
  { s with lists := fun K => if K = L then l else s.lists K }

/-- `colist_push_back`, neco.c 3295-3302 -/
def push (s : S) (L : LName) (n : Node) : S :=
  let t := rm s n
  setList t L (t.lists L ++ [n])

/-- `sched_resume`, neco.c 3668-3671 -/
def schedResume (s : S) (i : Nat) : S :=
  { push s .resumers (.co i) with nresumers := s.nresumers + 1 }

/-- `sched_resume` for each of the nodes popped from the queue `L` -/
def schedAll (s : S) (L : LName) : List Node → S
  | [] => s
  | n :: q => schedAll (note (schedResume s n.owner) (.wake L n.owner)) L q

/-- `coyield()` `n+1` times, then `a`, neco.c 3654-3660: the first `sco_yield` -/
def coyield (s : S) (i : Nat) (n : Nat) (a : Aft) : S :=
  let t := setPc s i (.yck n a)
  { t with sco := t.sco.yield }

/-- `yield_for_sched_resume()` and `extra` further `coyield()`s, then `a`, neco.c 3673-3681 -/
def yfsr (s : S) (i : Nat) (extra : Nat) (a : Aft) : S :=
  coyield s i ((if s.nresumers > 0 then 1 else 0) + extra) a

/-- `sco_resume(id)` by the running coroutine, neco.c 2075-2092 -/
def scoResume (s : S) (id : Nat) : S := { s with sco := s.sco.resume id }

/-- insertion into the deadline queue, ordered by (deadline, id), neco.c 3390-3395 -/
def dlInsert (co : Nat → Co) (i : Nat) : List Nat → List Nat
  | [] => [i]
  | j :: q =>
    if (co i).deadline < (co j).deadline ∨ ((co i).deadline = (co j).deadline ∧ i < j) then i :: j :: q
    else j :: dlInsert co i q

/-- `copause(deadline)`, neco.c 4490-4501, up to the context switch -/
def copause (s : S) (i : Nat) (dl : Int) (b : Blk) : S :=
  if (s.co i).canceled = true ∨ (s.co i).deadlined = true then setPc s i (.blk b)
  else
    let t := upd s i (fun c => { c with pc := .blk b, deadline := dl, paused := true })
    let t := { t with dlq := if dl < MAX then dlInsert t.co i t.dlq else t.dlq }
    { t with sco := t.sco.pause }

/-- the rest of `copause`, neco.c 4501-4506 -/
def unpause (s : S) (i : Nat) : S :=
  if (s.co i).paused = true then
    { upd s i (fun c => { c with paused := false, deadline := 0 }) with
      dlq := s.dlq.filter (fun j => decide (j ≠ i)) }
  else s

/-- the value returned by `checkdl`, neco.c 4603-4616 -/
def dlCode (s : S) (i : Nat) (dl : Int) : Int :=
  if (s.co i).canceled = true then CANCELED
  else if (s.co i).deadlined = true ∨ (dl < MAX ∧ s.clock > dl) then TIMEDOUT
  else OK

/-- the effect of `checkdl` -/
def dlClear (s : S) (i : Nat) : S := upd s i (fun c => { c with canceled := false, deadlined := false })

/-- return `v` from the current call -/
def retv (s : S) (i : Nat) (v : Int) : S := setPc s i (.ret v)

/-! ## Starting -/

/-- the record a new coroutine gets: a recycled one keeps whatever `start()` does not set
(neco.c 3841-3888, 3819-3829) -/
def newCo (s : S) (starter : Nat) (gen : Option Nat) : Co :=
  match s.pool with
  | [] => { async := s.envAsync, enabled := s.envEnabled, starterid := starter, gen := gen, blk := s.sco.nextId + 1 }
  | (c, _) :: _ => { c with
      pc := .user, call := .none, rdat := 0, sav := 0, retIdx := -1,
      async := s.envAsync, enabled := s.envEnabled, starterid := starter,
      gen := if gen.isSome then gen else c.gen }

/-- `start()` + `coentry`, neco.c 3837-3890 and 3819-3832, by coroutine `i` -/
def doStart (s : S) (i : Nat) (gen : Option Nat) : S :=
  let n := s.sco.nextId + 1
  let c := newCo s i gen
  let t := upd s i (fun c => { c with pc := .ret OK, lastid := n })
  { t with
    sco := s.sco.start
    co := fun j => if j = n then c else t.co j
    pool := s.pool.tail
    all := n :: s.all
    allCount := s.allCount + 1
    log := .start (some i) n :: s.log }

/-- `neco_gen_start`: make the channel, retained once, neco.c 3859-3866 -/
def doGenStart (s : S) (i : Nat) : S :=
  let c := s.nchan
  let t := { s with nchan := c + 1, chan := fun k => if k = c then some { rc := 1 } else s.chan k }
  doStart t i (some c)

/-! ## Channels -/

def setChan (s : S) (c : Nat) (ch : Chan) : S := { s with chan := fun k => if k = c then some ch else s.chan k }

/-- `chan_fastrelease`, neco.c 5919-5926.  Freeing a channel on which somebody is queued makes the next
list operation of that somebody undefined: marked as a fault at once. -/
def chanRelease (s : S) (c : Nat) : S :=
  match s.chan c with
  | none => { s with fault := true }
  | some ch =>
    if ch.rc - 1 < 0 then
      { s with chan := fun k => if k = c then none else s.chan k,
               fault := s.fault || !(s.lists (.chanQ c)).isEmpty }
    else setChan s c { ch with rc := ch.rc - 1 }

/-- the loop of `chan_send0` for a plain send, neco.c 5970-6001: pop receivers until one takes the message.
The argument list is the queue.  The result is the state and the receiver to resume. -/
def sendLoop (s : S) (c : Nat) (m : Msg) : List Node → S × Option Nat
  | [] => (setList s (.chanQ c) [], none)
  | .co r :: q => (note (upd (setList s (.chanQ c) q) r (fun k => { k with rdat := m })) (.take c r m), some r)
  | .case r idx :: q =>
    if (s.co r).retIdx ≠ -1 then sendLoop s c m q
    else
      let t := upd (setList s (.chanQ c) q) r (fun k => { k with retIdx := idx })
      let t := { t with chan := fun k => if k = c then (s.chan c).map (fun ch => { ch with lok := true, lmsg := m }) else s.chan k }
      (note t (.take c r m), some r)

/-- the loop of `chan_send0` for a broadcast, neco.c 5970-6001 -/
def bcastLoop (s : S) (c : Nat) (m : Msg) : List Node → S × Nat
  | [] => (setList s (.chanQ c) [], 0)
  | .co r :: q =>
    let t := note (upd (setList s (.chanQ c) q) r (fun k => { k with rdat := m })) (.bcastTo c r m)
    let p := bcastLoop (schedResume t r) c m q
    (p.1, p.2 + 1)
  | .case r idx :: q =>
    if (s.co r).retIdx ≠ -1 then bcastLoop s c m q
    else
      let t := upd (setList s (.chanQ c) q) r (fun k => { k with retIdx := idx })
      let t := { t with chan := fun k => if k = c then (s.chan c).map (fun ch => { ch with lok := true, lmsg := m }) else s.chan k }
      let t := note t (.bcastTo c r m)
      let p := bcastLoop (schedResume t r) c m q
      (p.1, p.2 + 1)

/-- hand the message to a waiting receiver, if there is one: the loop condition, neco.c 5970 -/
def sendTry (s : S) (c : Nat) (m : Msg) (ch : Chan) : S × Option Nat :=
  if ch.qrecv = true then sendLoop s c m (s.lists (.chanQ c)) else (s, none)

/-- `chan_send0` when no receiver took the message, neco.c 6007-6021: buffer it or block -/
def sendRest (s : S) (i c : Nat) (m : Msg) (dl : Int) (ch : Chan) : S :=
  if ch.buf.length < ch.cap then
    retv (setChan s c { ch with buf := ch.buf ++ [m] }) i OK
  else
    let t := push s (.chanQ c) (.co i)
    let t := setChan t c { ch with qrecv := false }
    let t := upd t i (fun k => { k with smsg := m })
    copause { t with nsenders := t.nsenders + 1 } i dl .send

/-- `chan_send0(chan, data, false, deadline)`, neco.c 5954-6027 up to the context switch -/
def chanSend (s : S) (i c : Nat) (m : Msg) (dl : Int) : S :=
  match s.chan c with
  | none => { s with fault := true }
  | some ch =>
    if ch.sclosed = true then retv s i CLOSED
    else if (s.co i).canceled = true then retv (upd s i (fun k => { k with canceled := false })) i CANCELED
    else
      let p := sendTry (note s (.put c i m)) c m ch
      match p.2 with
      | some r => scoResume (retv p.1 i OK) r
      | none => sendRest p.1 i c m dl ch

/-- the loop of a broadcast, entered when receivers wait: neco.c 5970 -/
def bcastTry (s : S) (c : Nat) (m : Msg) (ch : Chan) : S × Nat :=
  if ch.qrecv = true then bcastLoop s c m (s.lists (.chanQ c)) else (s, 0)

/-- `chan_send0(chan, data, true, ..)`: broadcast, neco.c 5954-6005 -/
def chanBcast (s : S) (i c : Nat) (m : Msg) : S :=
  match s.chan c with
  | none => { s with fault := true }
  | some ch =>
    if ch.sclosed = true then retv s i CLOSED
    else
      let p := bcastTry s c m ch
      yfsr p.1 i 0 (.ret p.2)

/-- the part of `chan_tryrecv0` that takes an available message, neco.c 6080-6119 (without the final
`sco_resume`).  Result: message, sender to resume, state.  `none`: nothing available.  `r` is the receiver.
Popping a select case where a sender is expected is undefined in C (marked as a fault). -/
def recvNow (s : S) (c r : Nat) (ch : Chan) : Option (Msg × Option Nat × S) :=
  match ch.buf with
  | m :: buf =>
    match s.lists (.chanQ c) with
    | [] =>
      let ch' := { ch with buf := buf, rclosed := ch.rclosed || (ch.sclosed && buf.isEmpty) }
      some (m, none, note (setChan s c ch') (.take c r m))
    | .co j :: q =>
      let t := setList s (.chanQ c) q
      let ch' := { ch with buf := buf ++ [(s.co j).smsg] }
      some (m, some j, note (setChan t c ch') (.take c r m))
    | .case _ _ :: _ => some (m, none, { s with fault := true })
  | [] =>
    match s.lists (.chanQ c) with
    | [] => none
    | n :: q =>
      if ch.qrecv = true then none
      else
        match n with
        | .co j =>
          let t := setList s (.chanQ c) q
          let ch' := { ch with rclosed := ch.rclosed || (ch.sclosed && q.isEmpty) }
          some ((s.co j).smsg, some j, note (setChan t c ch') (.take c r (s.co j).smsg))
        | .case _ _ => some (0, none, { s with fault := true })

/-- resume a sender, if any -/
def resumeOpt (s : S) : Option Nat → S
  | some j => scoResume s j
  | none => s

/-- `chan_tryrecv0`, neco.c 6065-6153 up to the context switch -/
def chanRecv (s : S) (i c : Nat) (try' : Bool) (dl : Int) : S :=
  match s.chan c with
  | none => { s with fault := true }
  | some ch =>
    if ch.rclosed = true then retv s i CLOSED
    else if (s.co i).canceled = true then retv (upd s i (fun k => { k with canceled := false })) i CANCELED
    else
      match recvNow s c i ch with
      | some (m, snd, t) => resumeOpt (retv (upd t i (fun k => { k with rdat := m })) i OK) snd
      | none =>
        if try' = true then retv s i EMPTY
        else
          let t := push s (.chanQ c) (.co i)
          let t := setChan t c { ch with qrecv := true }
          let t := upd t i (fun k => { k with cclosed := false })
          copause { t with nreceivers := t.nreceivers + 1 } i dl .recv

/-- the loop of `chan_close` that wakes the receivers, neco.c 6211-6228 -/
def closeLoop (s : S) (c : Nat) : List Node → S
  | [] => setList s (.chanQ c) []
  | .co r :: q =>
    let t := upd (setList s (.chanQ c) q) r (fun k => { k with cclosed := true })
    closeLoop (schedResume t r) c q
  | .case r idx :: q =>
    if (s.co r).retIdx ≠ -1 then closeLoop s c q
    else
      let t := upd (setList s (.chanQ c) q) r (fun k => { k with retIdx := idx, cclosed := true })
      let t := { t with chan := fun k => if k = c then (s.chan c).map (fun ch => { ch with lok := false }) else s.chan k }
      closeLoop (schedResume t r) c q

/-- set the flags at the end of `chan_close`, neco.c 6229-6230 -/
def closeEnd (s : S) (c : Nat) : S :=
  { s with chan := fun k => if k = c then (s.chan c).map (fun ch => { ch with rclosed := true, qrecv := false }) else s.chan k }

/-- `chan_close` on an open channel by coroutine `i`, which continues with `a`; neco.c 6203-6232 -/
def chanClose1 (s : S) (i c : Nat) (ch : Chan) (a : Aft) : S :=
  let t := setChan s c { ch with sclosed := true }
  if ch.buf ≠ [] ∨ (s.lists (.chanQ c) ≠ [] ∧ ch.qrecv = false) then setPc t i (.go a)
  else yfsr (closeEnd (closeLoop t c (t.lists (.chanQ c))) c) i 0 a

/-- `neco_chan_close`, neco.c 6195-6245 -/
def chanClose (s : S) (i c : Nat) : S :=
  match s.chan c with
  | none => { s with fault := true }
  | some ch => if ch.sclosed = true then retv s i CLOSED else chanClose1 s i c ch (.ret OK)

/-- the scan of `chan_select`, neco.c 6270-6279: first case that can be received -/
def selScan (s : S) : Nat → List Nat → Option (Nat × Nat)
  | _, [] => none
  | k, c :: cs =>
    match s.chan c with
    | none => selScan s (k + 1) cs
    | some ch =>
      if (s.lists (.chanQ c) ≠ [] ∧ ch.qrecv = false) ∨ ch.buf ≠ [] ∨ ch.rclosed = true then some (k, c)
      else selScan s (k + 1) cs

/-- push the cases, neco.c 6286-6289 -/
def selPush (s : S) (i : Nat) : Nat → List Nat → S
  | _, [] => s
  | k, c :: cs =>
    let t := push s (.chanQ c) (.case i k)
    let t := { t with chan := fun j => if j = c then (t.chan c).map (fun ch => { ch with qrecv := true }) else t.chan j }
    selPush t i (k + 1) cs

/-- remove all cases of `i`, neco.c 6297-6299 -/
def selRm (s : S) (i : Nat) : S :=
  { s with lists := fun L => (s.lists L).filter (fun n => match n with | .case j _ => decide (j ≠ i) | .co _ => true) }

/-- `chan_select`, neco.c 6247-6302 up to the context switch -/
def chanSelect (s : S) (i : Nat) (cs : List Nat) (dl : Int) (try' : Bool) : S :=
  if cs.any (fun c => (s.chan c).isNone) = true then { s with fault := true }
  else if (s.co i).canceled = true then retv (upd s i (fun k => { k with canceled := false })) i CANCELED
  else
    match selScan s 0 cs with
    | some (k, c) =>
      match s.chan c with
      | none => { s with fault := true }
      | some ch =>
        if ch.rclosed = true then setPc s i (.selGot k c CLOSED)
        else
          match recvNow s c i ch with
          | some (m, snd, t) =>
            let t := { t with chan := fun j => if j = c then (t.chan c).map (fun ch => { ch with lmsg := m }) else t.chan j }
            resumeOpt (setPc t i (.selGot k c OK)) snd
          | none => { s with fault := true }
    | none =>
      if try' = true then retv s i EMPTY
      else
        let t := selPush (upd s i (fun k => { k with retIdx := -1 })) i 0 cs
        copause { t with nreceivers := t.nreceivers + 1 } i dl .sel

/-- `chan_case`, neco.c 6442-6454 -/
def chanCase (s : S) (i c : Nat) : S :=
  match s.chan c with
  | none => { s with fault := true }
  | some ch => if ch.lok = true then retv (upd s i (fun k => { k with rdat := ch.lmsg })) i OK else retv s i CLOSED

/-! ## Mutexes -/

def setMu (s : S) (m : Nat) (x : Mu) : S := { s with mu := fun k => if k = m then x else s.mu k }

/-- `finish_lock`, neco.c 7185-7191 -/
def finishLock (s : S) (i m : Nat) (rd : Bool) (dl : Int) (b : Blk) : S :=
  let t := upd s i (fun k => { k with rlocked := rd })
  let t := push t (.muQ m) (.co i)
  copause { t with nlocked := t.nlocked + 1 } i dl b

/-- `mutex_lock_dl`, neco.c 7198-7207 with `mutex_trylock` 7126-7140 -/
def muLock (s : S) (i m : Nat) (dl : Int) : S :=
  if dlCode s i dl ≠ OK then retv (dlClear s i) i (dlCode s i dl)
  else
    let t := dlClear s i
    if (t.mu m).locked = true then finishLock t i m false dl (.lock false)
    else retv (note (setMu t m { t.mu m with locked := true }) (.grant m i false)) i OK

/-- the condition in `mutex_tryrdlock`, neco.c 7152 -/
def rdBusy (s : S) (m : Nat) : Bool :=
  !(s.lists (.muQ m)).isEmpty || ((s.mu m).rlocked == 0 && (s.mu m).locked)

/-- `neco_mutex_rdlock_dl`, neco.c 7225-7239 with `mutex_tryrdlock` 7143-7158 -/
def muRdlock (s : S) (i m : Nat) (dl : Int) : S :=
  if dlCode s i dl ≠ OK then retv (dlClear s i) i (dlCode s i dl)
  else
    let t := dlClear s i
    if rdBusy t m = true then finishLock t i m true dl (.lock true)
    else retv (note (setMu t m { locked := true, rlocked := (t.mu m).rlocked + 1 }) (.grant m i true)) i OK

/-- `neco_mutex_trylock`, neco.c 7160-7170 -/
def muTrylock (s : S) (i m : Nat) : S :=
  if (s.mu m).locked = true then retv s i BUSY
  else retv (note (setMu s m { s.mu m with locked := true }) (.grant m i false)) i OK

/-- `neco_mutex_tryrdlock`, neco.c 7172-7182 -/
def muTryrdlock (s : S) (i m : Nat) : S :=
  if rdBusy s m = true then retv s i BUSY
  else retv (note (setMu s m { locked := true, rlocked := (s.mu m).rlocked + 1 }) (.grant m i true)) i OK

/-- the loop of `mutex_fastunlock` that hands the lock over, neco.c 7263-7277.  The argument list is the
queue. -/
def handoff (s : S) (m : Nat) : List Node → S
  | [] => s
  | n :: q =>
    let t := schedResume (setList s (.muQ m) q) n.owner
    if (t.co n.owner).rlocked = true then
      let t := note (setMu t m { t.mu m with rlocked := (t.mu m).rlocked + 1 }) (.grant m n.owner true)
      match q with
      | [] => t
      | n' :: _ => if (t.co n'.owner).rlocked = true then handoff t m q else t
    else note t (.grant m n.owner false)

/-- whether `mutex_fastunlock` gets to the loop, neco.c 7245-7261 -/
def unlockHands (s : S) (m : Nat) : Bool :=
  (s.mu m).locked && decide ((s.mu m).rlocked ≤ 1) && !(s.lists (.muQ m)).isEmpty

/-- the effect of `mutex_fastunlock` without the final yields, neco.c 7245-7277 -/
def fastUnlock (s : S) (m : Nat) : S :=
  let x := s.mu m
  if x.locked = false then s
  else if x.rlocked > 1 then setMu s m { x with rlocked := x.rlocked - 1 }
  else if s.lists (.muQ m) = [] then setMu s m { locked := false, rlocked := 0 }
  else handoff (setMu s m { x with rlocked := 0 }) m (s.lists (.muQ m))

/-- `mutex_unlock`, neco.c 7281-7291 -/
def muUnlock (s : S) (i m : Nat) : S :=
  if unlockHands s m = true then yfsr (fastUnlock (note s (.release m i)) m) i 1 (.ret OK)
  else coyield (fastUnlock (note s (.release m i)) m) i 0 (.ret OK)

/-! ## Wait groups -/

def setWg (s : S) (w : Nat) (x : Int) : S := { s with wg := fun k => if k = w then x else s.wg k }

/-- `waitgroup_add`, neco.c 7383-7395; `int` overflow is undefined -/
def wgAdd (s : S) (i w : Nat) (delta : Int) : S :=
  let x := s.wg w + delta
  if x > 2147483647 ∨ x < -2147483648 then { s with fault := true }
  else if x < 0 then retv s i NEGWAITGRP
  else retv (setWg s w x) i OK

/-- `waitgroup_done`, neco.c 7404-7429 -/
def wgDone (s : S) (i w : Nat) : S :=
  if s.wg w = 0 then retv s i NEGWAITGRP
  else
    let t := setWg s w (s.wg w - 1)
    if s.wg w - 1 = 0 then
      match t.lists (.wgQ w) with
      | [] => retv t i OK
      | [n] => scoResume (retv (note (setList t (.wgQ w) []) (.wake (.wgQ w) n.owner)) i OK) n.owner
      | q => yfsr (schedAll (setList t (.wgQ w) []) (.wgQ w) q) i 0 (.ret OK)
    else retv t i OK

/-- `waitgroup_wait_dl`, neco.c 7437-7461 up to the context switch -/
def wgWait (s : S) (i w : Nat) (dl : Int) : S :=
  if dlCode s i dl ≠ OK then retv (dlClear s i) i (dlCode s i dl)
  else
    let t := dlClear s i
    if t.wg w = 0 then coyield (note t (.nowait (.wgQ w) i)) i 0 (.ret OK)
    else
      let t := push t (.wgQ w) (.co i)
      copause { t with nwaitgroupers := t.nwaitgroupers + 1 } i dl .wg

/-! ## Condition variables -/

/-- `cond_signal`, neco.c 7550-7561 -/
def cvSignal (s : S) (i v : Nat) : S :=
  match s.lists (.cvQ v) with
  | [] => retv s i OK
  | n :: q => scoResume (retv (note (setList s (.cvQ v) q) (.wake (.cvQ v) n.owner)) i OK) n.owner

/-- `cond_broadcast`, neco.c 7569-7582 -/
def cvBcast (s : S) (i v : Nat) : S :=
  yfsr (schedAll (setList s (.cvQ v) []) (.cvQ v) (s.lists (.cvQ v))) i 0 (.ret OK)

/-- `cond_wait_dl` from the enqueueing on, neco.c 7609-7611 -/
def cvEnq (s : S) (i v : Nat) (dl : Int) : S :=
  let t := push s (.cvQ v) (.co i)
  copause { t with ncondwaiters := t.ncondwaiters + 1 } i dl .cond

/-- `cond_wait_dl`, neco.c 7602-7611 -/
def cvWait (s : S) (i v m : Nat) (dl : Int) : S :=
  if (s.co i).canceled = true then retv (upd s i (fun k => { k with canceled := false })) i CANCELED
  else if unlockHands s m = true then yfsr (fastUnlock (note s (.release m i)) m) i 0 .condEnq
  else cvEnq (fastUnlock (note s (.release m i)) m) i v dl

/-! ## Coroutine operations -/

/-- `sleep_dl`/`sleep0`, neco.c 4510-4528 -/
def doSleep (s : S) (i : Nat) (dl : Int) : S :=
  if s.clock > dl then retv s i TIMEDOUT
  else copause { s with nsleepers := s.nsleepers + 1 } i dl .sleep

/-- `join_dl`, neco.c 7852-7874 up to the context switch -/
def doJoin (s : S) (i id : Nat) (dl : Int) : S :=
  if id ∉ s.all then retv (note s (.nowait (.joinQ id) i)) i OK
  else if dlCode s i dl ≠ OK then retv (dlClear s i) i (dlCode s i dl)
  else
    let t := dlClear s i
    if id = i then retv t i PERM
    else copause (push t (.joinQ id) (.co i)) i dl .join

/-- `suspend_dl`, neco.c 8639-8652 up to the context switch -/
def doSuspend (s : S) (i : Nat) (dl : Int) : S :=
  let t := upd s i (fun k => { k with suspended := true })
  copause { t with nsuspended := t.nsuspended + 1 } i dl .susp

/-- `resume`, neco.c 8671-8684 -/
def doResume (s : S) (i id : Nat) : S :=
  if id ∉ s.all then retv s i NOTFOUND
  else if (s.co id).suspended = false then retv s i NOTSUSPENDED
  else scoResume (retv (note s (.resume i id)) i OK) id

/-- one turn of the loop of `cancel_dl`, neco.c 4646-4669 up to the context switch -/
def doCancel (s : S) (i id : Nat) (dl : Int) : S :=
  if id ∉ s.all then retv s i NOTFOUND
  else if dlCode s i dl ≠ OK then retv (dlClear s i) i (dlCode s i dl)
  else
    let t := dlClear s i
    if (t.co id).enabled = true then
      let t := note (upd t id (fun k => { k with canceled := true })) (.cancel i id)
      scoResume (setPc t i (.yld 0 (.ret OK))) id
    else copause (push t (.cancelQ id) (.co i)) i dl .cancel

/-- `signal_wait_dl`, neco.c 4768-4783 up to the context switch -/
def doSigWait (s : S) (i : Nat) (dl : Int) : S :=
  if (s.co i).sigwatch = 0 then retv s i NOSIGWATCH
  else if (s.co i).canceled = true then retv (upd s i (fun k => { k with canceled := false })) i CANCELED
  else
    let t := upd s i (fun k => { k with sigmask := k.sigwatch })
    let t := push t .sigQ (.co i)
    copause { t with nsigwaiters := t.nsigwaiters + 1 } i dl .sig

/-- `signal_watch`, neco.c 4687-4700 (on the main thread) -/
def doSigWatch (s : S) (i n : Nat) : S :=
  if n < 1 ∨ n > 31 then retv s i INVAL
  else if (s.co i).sigwatch.testBit n = true then retv s i OK
  else retv { upd s i (fun k => { k with sigwatch := k.sigwatch ||| (1 <<< n) }) with
      sigwatchers := fun k => if k = n then s.sigwatchers k + 1 else s.sigwatchers k } i OK

/-- `signal_unwatch`, neco.c 4744-4757 -/
def doSigUnwatch (s : S) (i n : Nat) : S :=
  if n < 1 ∨ n > 31 then retv s i INVAL
  else if (s.co i).sigwatch.testBit n = true then
    retv { upd s i (fun k => { k with sigwatch := k.sigwatch ^^^ (1 <<< n) }) with
      sigwatchers := fun k => if k = n then s.sigwatchers k - 1 else s.sigwatchers k } i OK
  else retv s i OK

/-- insertion into `rt->evwaiters`, kept in order of coroutine -/
def evInsert (e : Nat × Bool × Nat) : List (Nat × Bool × Nat) → List (Nat × Bool × Nat)
  | [] => [e]
  | f :: q => if e.2.2 < f.2.2 then e :: f :: q else f :: evInsert e q

/-- does anyone wait on this descriptor in this direction (`evexists`, neco.c 3683-3687) -/
def evHas (s : S) (fd : Nat) (wr : Bool) : Bool := s.evw.any (fun e => e.1 == fd && e.2.1 == wr)

/-- `wait_dl` with `wait_dl_addevent`, neco.c 4855-4871, 4932-4946 up to the context switch; `epoll_ctl` succeeds -/
def doWait (s : S) (i fd : Nat) (wr : Bool) (dl : Int) : S :=
  let arm := if wr = false then (true, evHas s fd true) else (evHas s fd false, true)
  let t := { s with armed := fun k => if k = fd then arm else s.armed k,
                    evw := evInsert (fd, wr, i) s.evw, nevwaiters := s.nevwaiters + 1 }
  copause t i dl .wait

/-- `getstats`, neco.c 5663-5682 -/
def getStats (s : S) : Stats :=
  { coroutines := s.allCount, sleepers := s.nsleepers, evwaiters := s.nevwaiters, sigwaiters := s.nsigwaiters,
    senders := s.nsenders, receivers := s.nreceivers, locked := s.nlocked, waitgroupers := s.nwaitgroupers,
    condwaiters := s.ncondwaiters, suspended := s.nsuspended }

/-- `cleanup_pop`, neco.c 7688-7695; popping an empty stack dereferences NULL -/
def doCpop (s : S) (i : Nat) (execute : Bool) : S :=
  match (s.co i).cleanup with
  | [] => { s with fault := true }
  | h :: q =>
    let t := upd s i (fun k => { k with cleanup := q })
    retv (if execute = true then note t (.clean i h) else t) i OK

/-- `neco_gen_yield_dl`, neco.c 8582-8591 -/
def doGenYield (s : S) (i : Nat) (m : Msg) (dl : Int) : S :=
  match (s.co i).gen with
  | none => retv s i NOTGENERATOR
  | some c => chanSend s i c m dl

/-- what the call `c` of coroutine `i` does up to the first context switch -/
def doCall (s : S) (i : Nat) : Call → S
  | .none => s
  | .start => doStart s i none
  | .genStart => doGenStart s i
  -- `yield`, neco.c 4462-4468
  | .yield => coyield s i 0 (.ret OK)
  | .sleep dl => doSleep s i dl
  | .join id dl => doJoin s i id dl
  | .suspend dl => doSuspend s i dl
  | .resume id => doResume s i id
  -- `neco_exit`, neco.c 8461-8465
  | .exit => setPc s i (.exitRun true)
  -- `getid`, `lastid`, `starterid`, neco.c 4549-4598
  | .getid => retv s i i
  | .lastid => retv s i (s.co i).lastid
  | .starterid => retv s i (s.co i).starterid
  | .stats => retv (note s (.stats i (getStats s))) i OK
  -- `chan_make`, neco.c 5778-5816; the new channel is returned as a value
  | .chMake cap =>
    retv { s with nchan := s.nchan + 1, chan := fun k => if k = s.nchan then some { cap := cap } else s.chan k } i s.nchan
  -- `chan_retain`, neco.c 5867-5879
  | .chRetain c =>
    match s.chan c with
    | none => { s with fault := true }
    | some ch => retv (setChan s c { ch with rc := ch.rc + 1 }) i OK
  | .chRelease c => retv (chanRelease s c) i OK
  | .send c m dl => chanSend s i c m dl
  | .bcast c m => chanBcast s i c m
  | .recv c dl => chanRecv s i c false dl
  | .tryrecv c => chanRecv s i c true MAX
  | .close c => chanClose s i c
  | .select cs dl => chanSelect s i cs dl false
  | .tryselect cs => chanSelect s i cs MAX true
  | .chCase c => chanCase s i c
  | .genYield m dl => doGenYield s i m dl
  | .lock m dl => muLock s i m dl
  | .rdlock m dl => muRdlock s i m dl
  | .trylock m => muTrylock s i m
  | .tryrdlock m => muTryrdlock s i m
  | .unlock m => muUnlock s i m
  | .wgAdd w d => wgAdd s i w d
  | .wgDone w => wgDone s i w
  | .wgWait w dl => wgWait s i w dl
  | .cvSignal v => cvSignal s i v
  | .cvBcast v => cvBcast s i v
  | .cvWait v m dl => cvWait s i v m dl
  | .cancel _ _ => setPc s i .cancelTry
  -- `setcanceltype`, `setcancelstate`, neco.c 7636-7670
  | .setType a => retv (upd s i (fun k => { k with async := a })) i OK
  | .setState e => retv (upd s i (fun k => { k with enabled := e })) i OK
  -- `cleanup_push`, neco.c 7678-7686
  | .cpush h => retv (upd s i (fun k => { k with cleanup := h :: k.cleanup })) i OK
  | .cpop e => doCpop s i e
  | .sigWatch n => doSigWatch s i n
  | .sigUnwatch n => doSigUnwatch s i n
  | .sigWait dl => doSigWait s i dl
  | .wait fd wr dl => doWait s i fd wr dl
  -- `workfn`, neco.c 8729-8730
  | .work => setPc { s with niowaiters := s.niowaiters + 1 } i .workTry

/-! ## Continuing a coroutine -/

/-- the channel of a receive is freed: `chan->msgsize`, read when the receive finds the channel closed
(neco.c 6146-6148), is gone -/
def recvGone (s : S) (i : Nat) : Bool :=
  match (s.co i).call with
  | .recv c _ => (s.chan c).isNone
  | _ => false

/-- the code after `copause` returned, per place -/
def afterBlk (s : S) (i : Nat) : Blk → S
  -- `sleep0`, neco.c 4514-4518
  | .sleep =>
    let t := { s with nsleepers := s.nsleepers - 1 }
    retv (dlClear t i) i (if (t.co i).canceled = true then CANCELED else OK)
  -- `chan_send0`, neco.c 6022-6026
  | .send =>
    let t := { s with nsenders := s.nsenders - 1 }
    retv (dlClear (rm t (.co i)) i) i (dlCode t i MAX)
  -- `chan_tryrecv0`, neco.c 6134-6152
  | .recv =>
    let t := rm { s with nreceivers := s.nreceivers - 1 } (.co i)
    if dlCode t i MAX ≠ OK then retv (dlClear t i) i (dlCode t i MAX)
    else if (t.co i).cclosed = true then
      retv (upd (dlClear { t with fault := t.fault || recvGone t i } i) i (fun k => { k with cclosed := false, rdat := 0 })) i CLOSED
    else retv (dlClear t i) i OK
  -- `chan_select`, neco.c 6294-6301
  | .sel =>
    let t := selRm { s with nreceivers := s.nreceivers - 1 } i
    retv (dlClear t i) i (if dlCode t i MAX = OK then (t.co i).retIdx else dlCode t i MAX)
  -- `finish_lock`, neco.c 7192-7195
  | .lock _ =>
    let t := rm { s with nlocked := s.nlocked - 1 } (.co i)
    let t := upd t i (fun k => { k with rlocked := false })
    retv (dlClear t i) i (dlCode t i MAX)
  -- `finish_lock` called by `mutex_fastlock` called by `cond_wait_dl`, neco.c 7307-7309, 7616
  | .relock =>
    let t := rm { s with nlocked := s.nlocked - 1 } (.co i)
    let t := upd t i (fun k => { k with rlocked := false })
    if dlCode t i MAX = OK then retv (dlClear t i) i (t.co i).sav
    else if dlCode t i MAX = CANCELED ∧ (t.co i).async = true then setPc (note (dlClear t i) (.kill i false)) i (.exitRun true)
    else setPc (dlClear t i) i .relock
  -- `waitgroup_wait_dl`, neco.c 7458-7460
  | .wg =>
    let t := rm { s with nwaitgroupers := s.nwaitgroupers - 1 } (.co i)
    retv (dlClear t i) i (dlCode t i MAX)
  -- `cond_wait_dl`, neco.c 7612-7616
  | .cond =>
    let t := rm { s with ncondwaiters := s.ncondwaiters - 1 } (.co i)
    setPc (upd (dlClear t i) i (fun k => { k with sav := dlCode t i MAX })) i .relock
  -- `join_dl`, neco.c 7871-7873
  | .join => let t := rm s (.co i); retv (dlClear t i) i (dlCode t i MAX)
  -- `cancel_dl`, neco.c 4668-4669
  | .cancel => setPc (rm s (.co i)) i .cancelTry
  -- `suspend_dl`, neco.c 8648-8651
  | .susp =>
    let t := upd { s with nsuspended := s.nsuspended - 1 } i (fun k => { k with suspended := false })
    retv (dlClear t i) i (dlCode t i MAX)
  -- `signal_wait_dl`, neco.c 4784-4789
  | .sig =>
    let t := rm { s with nsigwaiters := s.nsigwaiters - 1 } (.co i)
    let t := upd t i (fun k => { k with sigmask := 0 })
    retv (dlClear t i) i (if dlCode t i MAX = OK then ((s.co i).sigmask : Int) else dlCode t i MAX)
  -- `wait_dl`, neco.c 4949-4957
  | .wait =>
    let t := { s with nevwaiters := s.nevwaiters - 1, evw := s.evw.filter (fun e => decide (e.2.2 ≠ i)) }
    retv (dlClear t i) i (dlCode t i MAX)

/-- ghost: a sender that leaves the queue of a channel withdraws its message -/
def noteWithdraw (s : S) (i : Nat) (c : Nat) : S :=
  if Node.co i ∈ s.lists (.chanQ c) then note s (.withdraw c i) else s

/-- the channel a sending coroutine is using -/
def sendChan (s : S) (i : Nat) : Option Nat :=
  match (s.co i).call with
  | .send c _ _ => some c
  | .genYield _ _ => (s.co i).gen
  | _ => none

/-- ghost: what a coroutine that is put into another list withdraws: `colist_push_back` removes it from the queue it is in, neco.c 3295-3296 -/
def leave (s : S) (i : Nat) : List Ev :=
  match sendChan s i with
  | some c => if Node.co i ∈ s.lists (.chanQ c) then [.withdraw c i] else []
  | none => []

def preBlk (s : S) (i : Nat) : Blk → S
  | .send => match sendChan s i with | some c => noteWithdraw s i c | none => s
  | _ => s

/-- one turn of the relocking loop of `cond_wait_dl`, neco.c 7616 with `mutex_fastlock` 7300-7310 -/
def doRelock (s : S) (i m : Nat) : S :=
  if (s.mu m).locked = false then
    retv (note (setMu s m { s.mu m with locked := true }) (.grant m i false)) i (s.co i).sav
  else if dlCode s i MAX = CANCELED ∧ (s.co i).async = true then setPc (note (dlClear s i) (.kill i false)) i (.exitRun true)
  else if dlCode s i MAX ≠ OK then setPc (dlClear s i) i .relock
  else finishLock (dlClear s i) i m false MAX .relock

/-- `coexit` after the cleanup handlers, neco.c 7726-7751 -/
def exitNotify (s : S) (i : Nat) (async : Bool) : S :=
  let t := { s with all := s.all.filter (fun j => decide (j ≠ i)), allCount := s.allCount - 1, log := .exit i :: s.log }
  let qc := t.lists (.cancelQ i)
  let t := schedAll (setList t (.cancelQ i) []) (.cancelQ i) qc
  let qj := t.lists (.joinQ i)
  let t := schedAll (setList t (.joinQ i) []) (.joinQ i) qj
  let sched := !qc.isEmpty || !qj.isEmpty
  match (t.co i).gen with
  | none => setPc t i (.go (.exitTail sched async))
  | some g =>
    match t.chan g with
    | none => { t with fault := true }
    | some ch =>
      if ch.sclosed = true then setPc t i (.go (.genRel sched async))
      else chanClose1 t i g ch (.genRel sched async)

/-- `coexit`, neco.c 7715-7725: run one cleanup handler, or go on -/
def doExit (s : S) (i : Nat) (async : Bool) : S :=
  if async = true then
    match (s.co i).cleanup with
    | h :: q => note (upd s i (fun k => { k with cleanup := q })) (.clean i h)
    | [] => exitNotify s i async
  else exitNotify s i async

/-- the end of a coroutine: `sco_exit` or the end of `sco_entry`, and `cleanup`, neco.c 7760-7762, 2025-2034,
3802-3817 -/
def doFin (s : S) (i : Nat) (async : Bool) : S :=
  let t := rm s (.co i)
  let t := { t with pool := t.pool ++ [(s.co i, 0)] }
  let t := setPc t i .dead
  { t with sco := if async = true then t.sco.exit else t.sco.finish }

/-- continue after the last `coyield` -/
def doAft (s : S) (i : Nat) : Aft → S
  | .ret v => retv s i v
  | .condEnq => match (s.co i).call with
    | .cvWait v _ dl => cvEnq s i v dl
    | _ => { s with fault := true }
  | .genRel sched async => match (s.co i).gen with
    | some g => setPc (upd (chanRelease s g) i (fun k => { k with gen := none })) i (.go (.exitTail sched async))
    | none => { s with fault := true }
  | .exitTail sched async =>
    if sched = true then yfsr s i 0 (.fin async) else setPc s i (.go (.fin async))
  | .fin async => doFin s i async

/-- the wrapper's guard and the return to user code, neco.c 3453-3474 -/
def doRet (s : S) (i : Nat) (v : Int) : S :=
  if v = CANCELED ∧ (s.co i).call.guarded = true ∧ (s.co i).async = true then setPc (note s (.kill i false)) i (.exitRun true)
  else upd (note s (.ret i (s.co i).call v (s.co i).rdat)) i (fun k => { k with pc := .user, call := .none })

/-- one step of the running coroutine `i` inside the library -/
def tauCo (s : S) (i : Nat) : Option S :=
  match (s.co i).pc with
  | .user => none
  | .dead => none
  | .workTry => none
  | .ret v => some (doRet s i v)
  -- `coyield`, neco.c 3654-3660
  | .yck n a =>
    if (s.co i).canceled = true ∧ (s.co i).async = true then some (setPc (note s (.kill i true)) i (.exitRun true))
    else match n with
      | 0 => some (setPc s i (.go a))
      | n + 1 => some (coyield s i n a)
  | .yld n a => some (coyield s i n a)
  | .go a => some (doAft s i a)
  -- `chan_select`, neco.c 6276-6277
  | .selGot k c v =>
    some (retv { s with chan := fun j => if j = c then (s.chan c).map (fun ch => { ch with lok := decide (v = OK) }) else s.chan j,
                        fault := s.fault || (s.chan c).isNone } i k)
  | .blk b => some (afterBlk (preBlk (unpause s i) i b) i b)
  | .cancelTry => match (s.co i).call with
    | .cancel id dl => some (doCancel s i id dl)
    | _ => some { s with fault := true }
  | .relock => match (s.co i).call with
    | .cvWait _ m _ => some (doRelock s i m)
    | _ => some { s with fault := true }
  -- `workfn`, neco.c 8735
  | .workWait => some (retv { s with niowaiters := s.niowaiters - 1 } i OK)
  | .exitRun a => some (doExit s i a)

/-! ## The main loop -/

/-- `sco_resume` from the main loop for each of some coroutines -/
def wakeAll (s : S) : List Nat → S
  | [] => s
  | i :: q => wakeAll (scoResume s i) q

/-- resume the resumers, neco.c 4162-4167 -/
def mResume (s : S) : S :=
  let q := s.lists .resumers
  let t := { setList s .resumers [] with nresumers := s.nresumers - q.length }
  wakeAll t (q.map Node.owner)

/-- resume the coroutines whose background work is done, neco.c 4193-4204 -/
def mIo (s : S) : S :=
  if s.niowaiters > 0 then
    let q := s.lists .iolist
    wakeAll (setList s .iolist []) (q.map Node.owner)
  else s

/-- one event of `rt_sched_event_step`, neco.c 4099-4138; the registration is one-shot -/
def mEvent (s : S) (e : Nat × Bool × Bool) : S :=
  let t := { s with armed := fun k => if k = e.1 then (false, false) else s.armed k }
  let rd := if e.2.1 = true then (s.evw.filter (fun w => w.1 == e.1 && w.2.1 == false)).map (·.2.2) else []
  let wr := if e.2.2 = true then (s.evw.filter (fun w => w.1 == e.1 && w.2.1 == true)).map (·.2.2) else []
  wakeAll { t with log := rd.map (.ready e.1 false) ++ wr.map (.ready e.1 true) ++ s.log } (rd ++ wr)

/-- the events the kernel may report: armed descriptors, each once, only for the directions armed
(`(false, false)` is a hang-up or error alone) -/
def evsOk (s : S) : List (Nat × Bool × Bool) → Bool
  | [] => true
  | e :: q => ((s.armed e.1).1 || (s.armed e.1).2) && (!e.2.1 || (s.armed e.1).1) && (!e.2.2 || (s.armed e.1).2)
      && q.all (fun f => f.1 != e.1) && evsOk s q

/-- `rt_sched_event_step`, neco.c 4078-4139 -/
def mEvents (s : S) : List (Nat × Bool × Bool) → S
  | [] => s
  | e :: q => mEvents (mEvent s e) q

/-- `rt_sched_signal_step`, neco.c 4040-4074 -/
def mSig (s : S) : S :=
  match (List.range 32).find? (fun n => decide (s.sigqueue n ≠ 0)) with
  | none => s
  | some n =>
    if s.sigwatchers n = 0 then
      { s with sigqueue := fun k => if k = n then s.sigqueue k - 1 else s.sigqueue k, dead := s.dead || decide (n ≠ 13) }
    else
      match (s.lists .sigQ).find? (fun w => (s.co w.owner).sigmask.testBit n) with
      | none => s
      | some w =>
        let t := upd s w.owner (fun k => { k with sigmask := n })
        let t := { t with sigqueue := fun k => if k = n then s.sigqueue k - 1 else s.sigqueue k }
        scoResume (note t (.sigTo n w.owner)) w.owner

/-- mark each as deadlined, neco.c 4233 -/
def markDl (s : S) (q : List Nat) : S :=
  { s with co := fun j => if j ∈ q then { s.co j with deadlined := true } else s.co j }

/-- the deadline loop, neco.c 4228-4236 (that it visits exactly the expired ones in order is C10) -/
def mDl (s : S) : S :=
  let q := s.dlq.filter (fun i => decide ((s.co i).deadline < s.clock))
  wakeAll (markDl s q) q

/-- `rt_rc_step`, neco.c 4251-4269: stamp the newly pooled ones, drop those idle for 100 ms.
(Newly pooled ones are at the tail.) -/
def mRc (s : S) : S :=
  let p := s.pool.map (fun e => if e.2 = 0 then (e.1, s.clock) else e)
  { s with pool := p.dropWhile (fun e => !decide (s.clock - e.2 < 100000000)) }

/-- one step of the main loop, neco.c 4277-4283 -/
def tauMain (s : S) : Option S :=
  match s.main with
  | .top =>
    if s.sco.active = false then some { note s .halt with main := .done }
    else if s.sco.npaused > 0 then some { mResume s with main := .io }
    else some { s with main := .rc }
  | .io => some { mIo s with main := .ev }
  | .ev => none
  | .sig => some { mSig s with main := .dl }
  | .dl => some { mDl s with main := .rc }
  | .rc => some { mRc s with main := .go }
  | .go => some { s with sco := s.sco.resume0, main := .top }
  | .done => none

/-! ## The transition system -/

/-- what can happen -/
inductive Act
  /-- the running coroutine makes an API call -/
  | call (c : Call)
  /-- the function of the running coroutine returns -/
  | finish
  /-- the library goes on -/
  | tau
  /-- `worker_submit` accepts or refuses, neco.c 8731 -/
  | submit (ok : Bool)
  /-- the system reports these events to the main loop -/
  | events (evs : List (Nat × Bool × Bool))
  /-- time passes -/
  | clock (t : Int)
  /-- a signal arrives, neco.c 3920-3933 -/
  | signal (n : Nat)
  /-- a background thread finishes the work of coroutine `i`, neco.c 8706-8712 -/
  | wdone (i : Nat)
deriving DecidableEq, Repr

/-- the signals that can be watched (Linux numbers), neco.c 3906-3908 -/
def allowedSig : List Nat := [1, 2, 3, 15, 13, 10, 12, 14]

/-- the transition function; `none`: not possible in this state -/
def step (s : S) (a : Act) : Option S :=
  if s.dead = true ∨ s.fault = true ∨ s.main = .done then none
  else match a with
  | .call c => match s.sco.cur with
    | none => none
    | some i =>
      if (s.co i).pc = .user ∧ c ≠ .none then
        some (doCall (upd (note s (.call i c)) i (fun k => { k with call := c })) i c)
      else none
  | .finish => match s.sco.cur with
    | none => none
    | some i => if (s.co i).pc = .user then some (setPc s i (.exitRun false)) else none
  | .tau => match s.sco.cur with
    | some i => tauCo s i
    | none => tauMain s
  | .submit ok => match s.sco.cur with
    | none => none
    | some i =>
      if (s.co i).pc = .workTry then
        if ok = true then
          let t := setPc { s with jobs := i :: s.jobs } i .workWait
          some { t with sco := t.sco.pause }
        else some { s with sco := s.sco.yield }
      else none
  | .events evs =>
    if s.sco.cur = none ∧ s.main = .ev ∧ evsOk s evs = true then
      some { (if s.nevwaiters > 0 then mEvents s evs else s) with main := .sig }
    else none
  | .clock t => if s.clock ≤ t then some { s with clock := t } else none
  | .signal n =>
    if n ∈ allowedSig then
      if s.sigwatchers n = 0 then some { note s (.sig n) with dead := decide (n ≠ 13) }
      else some { note s (.sig n) with sigqueue := fun k => if k = n then s.sigqueue k + 1 else s.sigqueue k }
    else none
  | .wdone i =>
    if i ∈ s.jobs then
      some (push { s with log := .wdone i :: (leave s i ++ s.log), jobs := s.jobs.erase i } .iolist (.co i))
    else none

/-- the state right after the outermost `neco_start` started the first coroutine, neco.c 4339-4388.
`envAsync` and `envEnabled` are the settings of `neco_env_setcanceltype/state`. -/
def init (envAsync envEnabled : Bool) : S :=
  { sco := ({} : Sco).start
    co := fun j => if j = 1 then { async := envAsync, enabled := envEnabled, blk := 1 } else {}
    all := [1], allCount := 1, envAsync := envAsync, envEnabled := envEnabled
    log := [.start none 1] }

/-- execute a list of actions -/
def run (s : S) : List Act → Option S
  | [] => some s
  | a :: as => match step s a with | some t => run t as | none => none

/-- the states reachable when every action satisfies `ok` in the state it is taken -/
inductive Reach (ok : S → Act → Prop) : S → Prop
  | init (a e : Bool) : Reach ok (init a e)
  | step {s s'} (h : Reach ok s) (a : Act) (hok : ok s a) (hs : step s a = some s') : Reach ok s'

/-- no restriction -/
def any : S → Act → Prop := fun _ _ => True

end Neco.Rt
