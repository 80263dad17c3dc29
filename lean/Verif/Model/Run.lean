/-! # The life of a runtime

Model of `run` with everything it calls to set up and tear down a runtime: neco.c 4339-4400 (`run`), 3982-4015 (`rt_handle_signals`),
4018-4037 (`rt_restore_signal_handlers`), 3921-3980 (`sigallowhandler`, `sighandler`), 2676-2747 (`worker_free`, `worker_new`), 4272-4294 (`rt_scheduler`, its
end), 4240-4250 (`rt_rc_step`, the event queue), 4296-4303 (`rt_freezchanpool`), 4331-4337 (`rt_release_dlhandles`), 3639-3642 (`rt_release`),
4913-4930 (`wait_dl`, the event queue), 8380-8395 (`libbsd`), 8699-8738 and 5189-5249 (jobs in worker threads).

A process has any number of threads, thread 0 is the main thread.  Each thread may call `neco_start` outside of a runtime, which gives it
one.  The steps of all threads interleave in any order; signals arrive between any two steps.  Between set-up and tear-down the program does what it
wants: coroutines start and end, wait for descriptors, send jobs to worker threads.  Every allocation may fail.

Simplified: the stacks of coroutines and `stack_mgr_destroy` are in `Verif.Model.Stack`, control blocks and arguments of coroutines in detail in
`Verif.Model.Args`, how many coroutines are in the pool of control blocks and for how long in `Verif.Model.Rt`, the references to a channel in
`Verif.Model.Ref`, the queues of the worker threads in `Verif.Model.Worker`.  `worker_new` for the 64 threads of the configuration is
modelled for any number of threads. -/

namespace Neco.Run

/-- what the process does with a signal -/
inductive Disp
  | dfl
  | ign
  /-- a handler of the program, with or without `SA_ONSTACK` -/
  | user (k : Nat) (onstack : Bool)
  /-- `sighandler`, installed with `SA_ONSTACK` (neco.c 3990-3997) -/
  | neco
deriving DecidableEq, Repr

/-- `ALLOWED_SIGNALS`, neco.c 3906-3908, numbers of Linux: HUP INT QUIT TERM PIPE USR1 USR2 ALRM -/
def allowed : List Nat := [1, 2, 3, 15, 13, 10, 12, 14]
/-- `TRAPPED_SIGNALS`, neco.c 3916-3918: ILL FPE SEGV BUS TRAP -/
def trapped : List Nat := [4, 8, 11, 7, 5]
def SIGPIPE : Nat := 13

def OK : Int := 0
def NOMEM : Int := -4

/-- whose a block of memory or a descriptor is (a ghost for the runtime's blocks) -/
inductive Owner
  | user
  /-- an alternate signal stack of the program, which it does not free -/
  | alt
  | rt (t : Nat)
deriving DecidableEq, Repr

/-- `struct worker_thread`, neco.c 2655-2664: its block and the one for its entries -/
structure WThread where
  blk : Nat
  entries : Option Nat
deriving DecidableEq, Repr

/-- `struct worker`, neco.c 2666-2670 -/
structure Worker where
  blk : Nat
  threads : Option Nat
  th : List WThread
deriving DecidableEq, Repr

/-- `struct runtime`, neco.c 3572-3633, the fields for resources -/
structure Rtm where
  blk : Nat
  id : Nat
  mainthread : Bool
  sigstack : Option Nat := none
  sigold : Nat → Disp := fun _ => .dfl
  sigwatchers : Nat → Nat := fun _ => 0
  sigqueue : Nat → Nat := fun _ => 0
  worker : Option Worker := none
  /-- control blocks of the coroutines that did not end yet -/
  cos : List Nat := []
  pool : List Nat := []
  zchanpool : Option Nat := none
  zchans : List Nat := []
  /-- 0 for none -/
  qfd : Nat := 0
  qfdcreated : Int := 0
  nevwaiters : Nat := 0
  libbsd : Bool := false
  /-- the coroutines with a job in a worker thread that is not done -/
  jobs : List Nat := []

/-- where a thread is: `out` is outside of `neco_start` -/
inductive Pc
  | out
  | sig
  | alt
  | set (k : Nat)
  | work
  | start
  | run
  | fin
  | zch
  | free
  | unset (k : Nat)
  | dl
  | wfree
  | rel
deriving DecidableEq, Repr

structure Th where
  pc : Pc := .out
  /-- the thread-local `rt` -/
  rt : Option Rtm := none
  /-- `ret` of `run` -/
  ret : Int := 0
  /-- the alternate signal stack the kernel has for the thread -/
  alt : Option Nat := none

/-- what an observer sees -/
inductive Ev
  /-- the thread calls `neco_start` outside of a runtime -/
  | call (t : Nat)
  /-- it gets a runtime with this id -/
  | born (t : Nat) (id : Nat)
  /-- the coroutine given to that call starts -/
  | ran (t : Nat)
  /-- the call returns -/
  | ret (t : Nat) (r : Int)
deriving DecidableEq, Repr

structure W where
  th : Nat → Th := fun _ => {}
  /-- the memory that is allocated -/
  heap : Nat → Option Owner := fun _ => none
  next : Nat := 1
  /-- the descriptors that are open; those of a runtime are event queues -/
  fds : Nat → Option Owner := fun _ => none
  /-- how often a thread's runtime has opened `libbsd` -/
  dls : Nat → Nat := fun _ => 0
  handler : Nat → Disp := fun _ => .dfl
  /-- `next_runtime_id`, neco.c 3567 -/
  nextId : Nat := 1
  /-- `NECO_MAXWORKERS` -/
  nthreads : Nat := 64
  /-- the process was ended by this signal -/
  died : Option Nat := none
  /-- memory that is not allocated was freed or used, or a descriptor closed that is not the runtime's -/
  fault : Bool := false
  /-- a signal handler ran on memory that is not allocated, or used a null pointer -/
  sigfault : Bool := false
  log : List Ev := []

def note (w : W) (e : Ev) : W := { w with log := e :: w.log }
def setTh (w : W) (t : Nat) (f : Th → Th) : W := { w with th := fun x => if x = t then f (w.th t) else w.th x }
def goto (w : W) (t : Nat) (p : Pc) : W := setTh w t (fun h => { h with pc := p })
def setRt (w : W) (t : Nat) (f : Rtm → Rtm) : W := setTh w t (fun h => { h with rt := h.rt.map f })

/-- `malloc0` -/
def alloc (w : W) (o : Owner) (ok : Bool) : W × Option Nat :=
  if ok = true then ({ w with heap := fun b => if b = w.next then some o else w.heap b, next := w.next + 1 }, some w.next)
  else (w, none)

/-- `free0` of a block -/
def free (w : W) (b : Nat) : W :=
  if w.heap b = none then { w with fault := true } else { w with heap := fun x => if x = b then none else w.heap x }

/-- `free0` of a pointer that may be null -/
def freeOpt (w : W) : Option Nat → W
  | none => w
  | some b => free w b

def freeAll (w : W) : List Nat → W
  | [] => w
  | b :: q => freeAll (free w b) q

/-- the memory at `b` is used -/
def use (w : W) (b : Nat) : W := if w.heap b = none then { w with fault := true } else w

/-- `close` of the event queue by the runtime of thread `t` -/
def closeq (w : W) (t : Nat) (f : Nat) : W :=
  if w.fds f = some (.rt t) then { w with fds := fun x => if x = f then none else w.fds x } else { w with fault := true }

/-! ## The workers -/

/-- one round of the loop of `worker_free`, neco.c 2680-2693 (the jobs it waits for are in `wfree`) -/
def freeThread (w : W) (h : WThread) : W := free (freeOpt w h.entries) h.blk

def freeThreads (w : W) : List WThread → W
  | [] => w
  | h :: q => freeThreads (freeThread w h) q

/-- `worker_free`, neco.c 2676-2699 -/
def workerFree (w : W) : Option Worker → W
  | none => w
  | some k =>
    match k.threads with
    | none => free w k.blk
    | some a => free (free (freeThreads w k.th) a) k.blk

/-- the loop of `worker_new`, neco.c 2729-2745: `n` more threads; the last result says whether all allocations worked.
A thread is in `worker->threads` before its entries are allocated. -/
def newThreads (w : W) (t : Nat) (ok : Nat → Bool) : Nat → Nat → List WThread → W × List WThread × Bool
  | 0, _, acc => (w, acc, true)
  | n + 1, i, acc =>
    match alloc w (.rt t) (ok i) with
    | (w1, none) => (w1, acc, false)
    | (w1, some b) =>
      match alloc w1 (.rt t) (ok (i + 1)) with
      | (w2, none) => (w2, acc ++ [⟨b, none⟩], false)
      | (w2, some e) => newThreads w2 t ok n (i + 2) (acc ++ [⟨b, some e⟩])

/-- `worker_new`, neco.c 2701-2747; `ok i`: its `i`-th allocation works -/
def workerNew (w : W) (t : Nat) (ok : Nat → Bool) : W × Option Worker :=
  match alloc w (.rt t) (ok 0) with
  | (w1, none) => (w1, none)
  | (w1, some b) =>
    match alloc w1 (.rt t) (ok 1) with
    | (w2, none) => (workerFree w2 (some ⟨b, none, []⟩), none)
    | (w2, some a) =>
      match newThreads w2 t ok w.nthreads 2 [] with
      | (w3, l, false) => (workerFree w3 (some ⟨b, some a, l⟩), none)
      | (w3, l, true) => (w3, some ⟨b, some a, l⟩)

/-! ## Set-up and tear-down -/

/-- the signals in the order the handlers are set and restored, neco.c 4006-4013, 4029-4036 -/
def sigs : List Nat := allowed ++ trapped

/-- `goto fail` with a result -/
def failed (w : W) (t : Nat) : W := setTh w t (fun h => { h with pc := .zch, ret := NOMEM })

/-- a job of `t`'s runtime is done: it puts its coroutine into a list of the runtime, neco.c 8708-8714, 5206-5208 -/
def jobDone (w : W) (r : Rtm) (b : Nat) : W := use (use w r.blk) b

def jobsDone (w : W) (r : Rtm) : List Nat → W
  | [] => w
  | b :: q => jobsDone (jobDone w r b) r q

/-- the next piece of `run`, neco.c 4345-4399; `ok i`: its `i`-th allocation works -/
def tau (w : W) (t : Nat) (ok : Nat → Bool) : Option W :=
  match (w.th t).rt with
  | none => none
  | some r =>
    match (w.th t).pc with
    | .out => none
    | .run => none
    -- `rt_handle_signals`
    | .sig =>
      if r.mainthread = false then some (goto w t .work)
      else match alloc w (.rt t) (ok 0) with
        | (w1, none) => some (failed w1 t)
        | (w1, some b) => some (goto (setRt w1 t (fun r => { r with sigstack := some b })) t .alt)
    | .alt => some (goto (setTh w t (fun h => { h with alt := r.sigstack })) t (.set 0))
    | .set k =>
      match sigs[k]? with
      | none => some (goto w t .work)
      | some n =>
        let w1 := setRt w t (fun r => { r with sigold := fun x => if x = n then w.handler n else r.sigold x })
        some (goto { w1 with handler := fun x => if x = n then .neco else w.handler x } t (.set (k + 1)))
    | .work =>
      match workerNew w t ok with
      | (w1, none) => some (failed w1 t)
      | (w1, some k) => some (goto (setRt w1 t (fun r => { r with worker := some k })) t .start)
    -- `start` of the first coroutine; `ok 1`: there is memory for stack and arguments
    | .start =>
      match alloc w (.rt t) (ok 0) with
      | (w1, none) => some (failed w1 t)
      | (w1, some b) =>
        if ok 1 = true then some (note (goto (setRt w1 t (fun r => { r with cos := [b] })) t .run) (.ran t))
        else some (failed (free w1 b) t)
    -- the end of `rt_scheduler`
    | .fin =>
      let w1 := if r.qfd ≠ 0 then closeq w t r.qfd else w
      let w2 := freeAll w1 r.pool
      some (setTh (setRt w2 t (fun r => { r with pool := [] })) t (fun h => { h with pc := .zch, ret := OK }))
    -- `rt_freezchanpool`
    | .zch => some (goto (freeOpt (freeAll w r.zchans) r.zchanpool) t .free)
    -- `rt_restore_signal_handlers`
    | .free =>
      if r.mainthread = false then some (goto w t .dl)
      else match r.sigstack with
        | none => some (goto w t .dl)
        | some b => some (goto (free w b) t (.unset 0))
    | .unset k =>
      match sigs[k]? with
      | none => some (goto w t .dl)
      | some n => some (goto { w with handler := fun x => if x = n then r.sigold n else w.handler x } t (.unset (k + 1)))
    -- `rt_release_dlhandles`
    | .dl =>
      some (goto (if r.libbsd = true then { w with dls := fun x => if x = t then w.dls t - 1 else w.dls x } else w) t .wfree)
    -- `worker_free`: the threads finish their jobs first (neco.c 2757-2769, 2689)
    | .wfree => 
      some (goto (setRt (workerFree (jobsDone w r r.jobs) r.worker) t (fun r => { r with jobs := [] })) t .rel)
    -- `rt_release`
    | .rel => some (note (setTh (free w r.blk) t (fun h => { h with pc := .out, rt := none })) (.ret t (w.th t).ret))

/-! ## Signals -/

/-- the handler runs on the alternate stack if the thread has one -/
def onStack (w : W) (h : Th) : W :=
  match h.alt with
  | none => w
  | some b => if w.heap b = none then { w with sigfault := true } else w

/-- `sighandler` and `sigallowhandler` in a thread, neco.c 3921-3980; not modelled: `sigcrashed`, it only matters while the process ends -/
def sighandler (w : W) (t : Nat) (n : Nat) : W :=
  match (w.th t).rt with
  | none => { w with sigfault := true }
  | some r =>
    if n ∈ allowed then
      if r.sigwatchers n = 0 then (if n ≠ SIGPIPE then { w with died := some n } else w)
      else setRt w t (fun r => { r with sigqueue := fun x => if x = n then r.sigqueue x + 1 else r.sigqueue x })
    else if n ∈ trapped then { w with died := some n }
    else w

/-- signal `n` arrives in thread `t` -/
def deliver (w : W) (t : Nat) (n : Nat) : W :=
  match w.handler n with
  | .dfl => { w with died := some n }
  | .ign => w
  | .user _ false => w
  | .user _ true => onStack w (w.th t)
  | .neco => sighandler (onStack w (w.th t)) t n

/-- signal `n` is raised in a worker thread, which has no alternate stack and no runtime (`rt` is thread-local, neco.c 3637), for example by `iowrite`
(neco.c 5200-5205) when it writes to a broken pipe -/
def deliverWorker (w : W) (n : Nat) : W :=
  match w.handler n with
  | .dfl => { w with died := some n }
  | .ign => w
  | .user _ _ => w
  | .neco => { w with sigfault := true }

/-! ## What happens -/

inductive Act
  /-- thread `t`, outside of a runtime, calls `neco_start`; `ok`: there is memory for `struct runtime` -/
  | call (t : Nat) (ok : Bool)
  | tau (t : Nat) (ok : Nat → Bool)
  /-- a coroutine starts another one; `ok`: there is memory -/
  | begin (t : Nat) (ok : Bool)
  /-- the coroutine with this control block ends -/
  | endco (t : Nat) (b : Nat)
  /-- no coroutine is left, `rt_scheduler` leaves its loop -/
  | finish (t : Nat)
  /-- a coroutine makes a channel for messages without data; `ok`: there is memory -/
  | mkchan (t : Nat) (ok : Bool)
  /-- the last reference to a channel for messages without data is released; `ok`: there is room for it in the pool -/
  | relchan (t : Nat) (b : Nat) (ok : Bool)
  /-- the array of the pool of channels gets larger; `ok`: there is memory -/
  | grow (t : Nat) (ok : Bool)
  /-- a coroutine begins to wait for a descriptor at time `now`; `q`: the result of `epoll_create1` if it is needed -/
  | wait (t : Nat) (now : Int) (q : Option Nat)
  /-- a coroutine ends its wait -/
  | unwait (t : Nat)
  /-- `rt_rc_step` at time `now` -/
  | rc (t : Nat) (now : Int)
  /-- control blocks that were in the pool for long are freed by `rt_rc_step` -/
  | drop (t : Nat)
  /-- secure random numbers are asked for -/
  | random (t : Nat)
  /-- a coroutine sends a job to a worker thread -/
  | submit (t : Nat) (b : Nat)
  /-- a job is done -/
  | done (t : Nat) (b : Nat)
  | watch (t : Nat) (n : Nat)
  /-- signal `n` arrives in thread `t` -/
  | signal (t : Nat) (n : Nat)
  /-- signal `n` is raised in a worker thread of the runtime of `t` -/
  | wsignal (t : Nat) (n : Nat)
  /-- the program (any thread of it) calls `sigaction` -/
  | sigaction (n : Nat) (d : Disp)
  /-- the program gives thread `t` an alternate signal stack of its own -/
  | sigaltstack (t : Nat)
  /-- the program opens and closes descriptors -/
  | «open» (f : Nat)
  | close (f : Nat)

/-- `rt` of a thread that is in `rt_scheduler` -/
def inRun (w : W) (t : Nat) : Option Rtm := if (w.th t).pc = .run then (w.th t).rt else none

/-- one step; `none`: not possible -/
def step (w : W) : Act → Option W
  | .call t ok =>
    if w.died.isSome ∨ (w.th t).pc ≠ .out then none
    else
      let w := note w (.call t)
      -- neco.c 4343-4349
      match alloc w (.rt t) ok with
      | (w1, none) => some (note (setTh w1 t (fun h => { h with ret := NOMEM })) (.ret t NOMEM))
      | (w1, some b) =>
        let w2 := setTh w1 t (fun h => { h with pc := .sig, rt := some { blk := b, id := w1.nextId, mainthread := decide (t = 0) } })
        some (note { w2 with nextId := w2.nextId + 1 } (.born t w1.nextId))
  | .tau t ok => if w.died.isSome then none else tau w t ok
  | .begin t ok =>
    if w.died.isSome then none else
    match inRun w t with
    | none => none
    | some r =>
      -- neco.c 3841-3848
      match r.pool with
      | b :: q => some (setRt w t (fun r => { r with pool := q, cos := b :: r.cos }))
      | [] =>
        match alloc w (.rt t) ok with
        | (w1, none) => some w1
        | (w1, some b) => some (setRt w1 t (fun r => { r with cos := b :: r.cos }))
  | .endco t b =>
    if w.died.isSome then none else
    match inRun w t with
    | none => none
    -- `cleanup`, neco.c 3800-3814
    | some r => if b ∈ r.cos then some (setRt w t (fun r => { r with cos := r.cos.erase b, pool := r.pool ++ [b] })) else none
  | .finish t =>
    if w.died.isSome then none else
    match inRun w t with
    | none => none
    | some r => if r.cos = [] then some (goto w t .fin) else none
  | .mkchan t ok =>
    if w.died.isSome then none else
    match inRun w t with
    | none => none
    | some r =>
      -- neco.c 5787-5795; a channel in use belongs to the program
      match r.zchans with
      | b :: q => some (setRt { w with heap := fun x => if x = b then some .user else w.heap x } t (fun r => { r with zchans := q }))
      | [] => some (alloc w .user ok).1
  | .relchan t b ok =>
    if w.died.isSome then none else
    match inRun w t with
    | none => none
    | some r =>
      if w.heap b = some .user then
        -- neco.c 5915-5925
        if ok = true ∧ r.zchanpool.isSome then
          some (setRt { w with heap := fun x => if x = b then some (.rt t) else w.heap x } t (fun r => { r with zchans := b :: r.zchans }))
        else some (free w b)
      else none
  | .grow t ok =>
    if w.died.isSome then none else
    match inRun w t with
    | none => none
    | some r =>
      -- `realloc0`, neco.c 5906-5913
      match alloc w (.rt t) ok with
      | (w1, none) => some w1
      | (w1, some b) => some (setRt (freeOpt w1 r.zchanpool) t (fun r => { r with zchanpool := some b }))
  | .wait t now q =>
    if w.died.isSome then none else
    match inRun w t with
    | none => none
    | some r =>
      -- neco.c 4915-4930, 4940
      if r.qfd = 0 then
        match q with
        | none => some w
        | some f =>
          if w.fds f = none then
            some (setRt { w with fds := fun x => if x = f then some (.rt t) else w.fds x } t
              (fun r => { r with qfd := f, qfdcreated := now, nevwaiters := r.nevwaiters + 1 }))
          else none
      else some (setRt w t (fun r => { r with nevwaiters := r.nevwaiters + 1 }))
  | .unwait t =>
    if w.died.isSome then none else
    match inRun w t with
    | none => none
    | some r => if r.nevwaiters = 0 then none else some (setRt w t (fun r => { r with nevwaiters := r.nevwaiters - 1 }))
  | .rc t now =>
    if w.died.isSome then none else
    match inRun w t with
    | none => none
    | some r =>
      -- neco.c 4242-4250
      if r.nevwaiters = 0 ∧ r.qfd > 0 ∧ now - r.qfdcreated > 100000000 then
        some (setRt (closeq w t r.qfd) t (fun r => { r with qfd := 0 }))
      else some w
  | .drop t =>
    if w.died.isSome then none else
    match inRun w t with
    | none => none
    | some r =>
      -- neco.c 4259-4267
      match r.pool with
      | [] => none
      | b :: q => some (setRt (free w b) t (fun r => { r with pool := q }))
  | .random t =>
    if w.died.isSome then none else
    match inRun w t with
    | none => none
    | some r =>
      if r.libbsd = true then some w
      else some (setRt { w with dls := fun x => if x = t then w.dls t + 1 else w.dls x } t (fun r => { r with libbsd := true }))
  | .submit t b =>
    if w.died.isSome then none else
    match inRun w t with
    | none => none
    | some r => if b ∈ r.cos then some (setRt w t (fun r => { r with jobs := b :: r.jobs })) else none
  | .done t b =>
    if w.died.isSome then none else
    match (w.th t).rt with
    | none => none
    | some r => if b ∈ r.jobs then some (setRt (jobDone w r b) t (fun r => { r with jobs := r.jobs.erase b })) else none
  | .watch t n =>
    if w.died.isSome then none else
    match inRun w t with
    | none => none
    | some _ => some (setRt w t (fun r => { r with sigwatchers := fun x => if x = n then r.sigwatchers x + 1 else r.sigwatchers x }))
  | .signal t n => if w.died.isSome then none else some (deliver w t n)
  | .wsignal t n =>
    if w.died.isSome then none else
    match (w.th t).rt with
    | none => none
    | some r => if r.jobs = [] then none else some (deliverWorker w n)
  | .sigaction n d => if w.died.isSome ∨ d = .neco then none else some { w with handler := fun x => if x = n then d else w.handler x }
  | .sigaltstack t =>
    if w.died.isSome then none else
    match alloc w .alt true with
    | (w1, b) => some (setTh w1 t (fun h => { h with alt := b }))
  | .open f =>
    if w.died.isSome then none else
    if w.fds f = none then some { w with fds := fun x => if x = f then some .user else w.fds x } else none
  | .close f =>
    if w.died.isSome then none else
    if w.fds f = some .user then some { w with fds := fun x => if x = f then none else w.fds x } else none

/-- a process at its start: the program has descriptors and dispositions of its own, no runtime exists -/
def init (fds : Nat → Bool) (handler : Nat → Disp) (nthreads : Nat) : W :=
  { fds := fun f => if fds f = true then some .user else none, handler := handler, nthreads := nthreads }

/-- the states that a process can get to when each step satisfies `p` -/
inductive Reach (p : W → Act → Prop) : W → Prop
  | init (fds : Nat → Bool) (handler : Nat → Disp) (nthreads : Nat) (h : ∀ n, handler n ≠ .neco) : Reach p (init fds handler nthreads)
  | step {w w' : W} (r : Reach p w) {a : Act} (hp : p w a) (h : step w a = some w') : Reach p w'

/-- a piece of an execution -/
inductive Steps (p : W → Act → Prop) : W → List Act → W → Prop
  | nil (w : W) : Steps p w [] w
  | cons {w w1 w' : W} {a : Act} {q : List Act} (hp : p w a) (h : step w a = some w1) (s : Steps p w1 q w') : Steps p w (a :: q) w'

end Neco.Run
