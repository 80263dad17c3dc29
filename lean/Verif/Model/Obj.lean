import Verif.Model.Err
/-! # Which runtime may use which object: the checks at the head of every public function

Several OS threads of one process call the API.  A thread has a runtime of its own or none
(`static __thread struct runtime *rt`, neco.c 3637).  Channels, generators, streams, mutexes,
waitgroups and condition variables carry the identifier of a runtime (`rtid`); a mutex, a
waitgroup or a condition variable may also be plain zero memory, which the first call on it
initialises.

A call of a public function is a list of checks (`checks`), made one at a time so that the threads
can interleave between any two of them, and then the body of the function, of which this model
keeps only which objects it touches, when, and what it returns (any value).

Simplified: the contents of an object are the list of the runtimes whose calls touched it since it
was initialised (its behaviour inside one runtime is the matter of `Model/Rt`).  Memory of a
channel is not freed and used again (`Model/Ref`).  Inside a runtime user code always runs in a
coroutine, so the tests `!co` and `!rt` agree.  `neco_mutex_init` and `neco_waitgroup_init` called by
a check also set `lasterr` to 0; every call that gets past them sets it again before it returns, so
this is left out.  `NECO_NOMEM` of `neco_chan_select` with more than
eight cases, tested before the channels are, is a result of the body.  `neco_exit`, the
`neco_cleanup_*` pair, the `neco_env_*` setters, `neco_lasterr`, `neco_strerror`,
`neco_switch_method`, `neco_panic` are not calls of this model. -/
namespace Neco.Obj
open Neco.Err

/-- what is done with a channel or a generator, neco.h 84-104, 389-399 -/
inductive ChanOp | retain | release | send | broadcast | recv | tryrecv | close | case
deriving DecidableEq, Repr
/-- what is done with a mutex, neco.h 118-127 -/
inductive MuOp | lock | rdlock | trylock | tryrdlock | unlock
deriving DecidableEq, Repr
/-- what is done with a waitgroup, neco.h 139-142 -/
inductive WgOp | add | done | wait
deriving DecidableEq, Repr
/-- what is done with a stream, neco.h 404-425 -/
inductive StOp | read | readfull | readByte | unread | write | flush | close | rdSize | wrSize
deriving DecidableEq, Repr
/-- calls that only need a runtime and report errors by a code -/
inductive Plain | yield | sleep | join | suspend | resume | getid | lastid | starterid | cancel | setseed | isMain
deriving DecidableEq, Repr
/-- calls that only need a runtime and report errors by `errno` -/
inductive Posix | read | write | accept | connect
deriving DecidableEq, Repr

/-- A call of a public function, neco.h 60-436, with the arguments its checks look at.  A pointer
to an object is `none` for `NULL`; another pointer is a Boolean, false for `NULL`.  The variants
with a deadline, and those of `neco_gen_*` that only rename a `neco_chan_*` function (neco.c
8563-8617), make the same checks as the function named. -/
inductive Call
  | start (fn : Bool) (argc : Int)
  | plain (p : Plain)
  | posix (p : Posix)
  | gai
  | pipe (out : Bool)
  | sigWatch (n : Int) | sigUnwatch (n : Int) | sigWait
  | wait (mode : Int)
  | getstats (out : Bool)
  | dial (net addr : Option String) | serve (net addr : Option String)
  | setType (t : Int) | setState (t : Int)
  | rand (attr : Int)
  | work (fn : Bool)
  | now | setnonblock
  | chanMake (out : Bool) (size cap : Nat)
  | chan (op : ChanOp) (c : Option Nat)
  | select (n : Int) (cs : List (Option Nat))
  | genStart (out : Bool) (size : Nat) (fn : Bool) (argc : Int)
  /-- the argument: the generator of the calling coroutine, if it has one -/
  | genYield (g : Option Nat)
  | muInit (m : Option Nat) | mu (op : MuOp) (m : Option Nat)
  | wgInit (w : Option Nat) | wg (op : WgOp) (w : Option Nat)
  | cvInit (c : Option Nat) | cvSignal (c : Option Nat) | cvBroadcast (c : Option Nat) | cvWait (c m : Option Nat)
  | streamMake (out : Bool) (fd : Int)
  | stream (op : StOp) (s : Option Nat)
deriving DecidableEq, Repr

/-- One check or initialisation at the head of a function. -/
inductive Check
  /-- `NECO_INVAL` unless the condition on the arguments holds -/
  | arg (ok : Bool)
  /-- `NECO_PERM` unless the thread has a runtime -/
  | rt
  /-- `NECO_PERM` unless the thread has a runtime and is the main thread -/
  | main
  /-- `NECO_NOTGENERATOR` unless the coroutine has a generator -/
  | gen (ok : Bool)
  /-- `if (!p) INVAL; else if (!rt || p->rtid != rt->id) PERM` -/
  | own (o : Option Nat)
  /-- `if (!p) INVAL; else if (!rt) PERM; else if (p->rtid == 0) init; else if (p->rtid != rt->id) PERM` -/
  | lazy (o : Option Nat)
  /-- `memset(p, 0, ..); p->rtid = rt->id; colist_init(&p->queue)` -/
  | init (o : Option Nat)
deriving DecidableEq, Repr

/-- `INT_MAX` -/
def INT_MAX : Nat := 2147483647

/-- the names the chain of `strcmp` in `dial_dl` and `serve_dl` knows, neco.c 6931-6941, 7031-7041 -/
def knownNet (n : Option String) : Bool := n = some "tcp" || n = some "tcp4" || n = some "tcp6" || n = some "unix"

/-- The checks of each function, in their order. -/
def checks : Call → List Check
  | .start fn argc => [.arg (fn && decide (0 ≤ argc))]  -- `startv`, neco.c 4405-4407
  -- `yield` 4462, `sleep_dl` 4521, `join_dl` 7852, `suspend_dl` 8639, `resume` 8671, `getid` 4549,
  -- `lastid` 4567, `starterid` 4593, `cancel_dl` 4640, `rand_setseed` 8348, `_is_main_thread_` 3710
  | .plain _ => [.rt]
  | .posix _ => [.rt]  -- `read_dl` 5092, `write_dl` 5254, `accept_dl` 5391, `connect_dl` 5449
  | .gai => [.rt]  -- `getaddrinfo_dl`, neco.c 6596-6600
  | .pipe out => [.arg out, .rt]  -- `_pipe_`, neco.c 7775-7783
  | .sigWatch n => [.arg (decide (1 ≤ n) && decide (n ≤ 31)), .main]  -- `signal_watch`, neco.c 4687-4694
  | .sigUnwatch n => [.arg (decide (1 ≤ n) && decide (n ≤ 31)), .main]  -- `signal_unwatch`, neco.c 4744-4751
  | .sigWait => [.main]  -- `signal_wait_dl`, neco.c 4768-4772
  | .wait mode => [.arg (decide (mode = 1) || decide (mode = 2)), .rt]  -- `wait_dl`, neco.c 4900-4905
  | .getstats out => [.arg out, .rt]  -- `getstats`, neco.c 5663-5668
  | .dial net addr => [.rt, .arg (net.isSome && addr.isSome), .arg (knownNet net)]  -- `dial_dl`, neco.c 6926-6942
  | .serve net addr => [.arg (net.isSome && addr.isSome), .rt, .arg (knownNet net)]  -- `serve_dl`, neco.c 7025-7042
  | .setType t => [.arg (decide (t = 1) || decide (t = 2)), .rt]  -- `setcanceltype`, neco.c 7636-7643
  | .setState t => [.arg (decide (t = 3) || decide (t = 4)), .rt]  -- `setcancelstate`, neco.c 7657-7664
  | .rand attr => [.arg (decide (attr = 0) || decide (attr = 1)), .rt]  -- `rand_dl`, neco.c 8376-8382
  | .work fn => [.arg fn, .rt]  -- `workfn`, neco.c 8715-8723
  | .now => []  -- `neco_now`, neco.c 4843-4847
  | .setnonblock => []  -- `setnonblock`, neco.c 6822-6841
  | .chanMake out size cap => [.arg (out && decide (size ≤ INT_MAX) && decide (cap ≤ INT_MAX)), .rt]  -- `chan_make`, neco.c 5801-5807
  -- `chan_retain` 5871, `chan_release` 5929, `chan_send0` 5954, `chan_tryrecv0` 6065, `chan_close` 6195, `chan_case` 6442
  | .chan _ c => [.own c]
  | .select n cs => .arg (decide (0 ≤ n)) :: .rt :: cs.map .own  -- `chan_selectv_dl` 6304-6311, `chan_select` 6251-6258
  | .genStart out size fn argc => [.arg (out && decide (size ≤ INT_MAX)), .rt, .arg (fn && decide (0 ≤ argc))]  -- `gen_start_chk` 8472-8480, `startv` 4405
  | .genYield g => [.rt, .gen g.isSome, .own g]  -- `neco_gen_yield_dl`, neco.c 8582-8591
  | .muInit m => [.arg m.isSome, .rt, .init m]  -- `mutex_init`, neco.c 7093-7104
  | .mu _ m => [.lazy m]  -- `check_mutex`, neco.c 7112-7123
  | .wgInit w => [.arg w.isSome, .rt, .init w]  -- `waitgroup_init`, neco.c 7362-7373
  | .wg _ w => [.lazy w]  -- `check_waitgroup`, neco.c 7349-7360
  | .cvInit c => [.arg c.isSome, .rt, .init c]  -- `cond_init`, neco.c 7497-7512
  | .cvSignal c => [.lazy c]  -- `check_cond`, neco.c 7521-7532
  | .cvBroadcast c => [.lazy c]
  | .cvWait c m => [.lazy c, .lazy m]  -- `cond_wait_dl`, neco.c 7590-7602
  | .streamMake out fd => [.arg (out && decide (0 ≤ fd)), .rt]  -- `stream_make_buffered_size`, neco.c 7938-7942
  -- `stream_release` 7984, `stream_read_dl` 8036, `stream_buffered_read_size` 8113, `stream_unread_byte` 8154,
  -- `stream_flush_dl` 8174, `stream_write_dl` 8215, `stream_buffered_write_size` 8265, `stream_close_dl` 8282
  | .stream _ s => [.own s]

/-- the objects a call is given -/
def objects : Call → List (Option Nat)
  | .chan _ c => [c]
  | .select _ cs => cs
  | .genYield g => [g]
  | .muInit m | .mu _ m => [m]
  | .wgInit w | .wg _ w => [w]
  | .cvInit c | .cvSignal c | .cvBroadcast c => [c]
  | .cvWait c m => [c, m]
  | .stream _ s => [s]
  | _ => []

/-- the functions that return -1 and set `errno`, neco.c 5094-5097, 5258-5261, 5395-5398, 5453-5456, 7776-7783 -/
def bySys : Call → Bool
  | .posix _ | .pipe _ => true
  | _ => false

/-- `EAI_SYSTEM` of glibc -/
def EAI_SYSTEM : Int := -11

/-- what a call that a check refuses with the code `k` returns: `getaddrinfo_dl`, neco.c 6597-6600 -/
def refusal (c : Call) (k : Int) : Int :=
  match c with
  | .gai => EAI_SYSTEM
  | _ => if bySys c then -1 else k

/-- Is `lasterr` set when this check of this call refuses?  The four functions that take a mutex
return what `check_mutex` says before their guard (neco.c 7157-7160, 7169-7172, 7205-7208,
7226-7229), and so does `neco_gen_yield_dl` before it calls `neco_chan_send_dl` (8583-8589). -/
def loud (c : Call) (k : Check) : Bool :=
  match c, k with
  | .mu .unlock _, _ => true
  | .mu _ _, _ => false
  | .genYield _, .own _ => true
  | .genYield _, _ => false
  | _, _ => true

/-- `lasterr` after the guard of a call whose body returned `r` with `errno` equal to `e`:
`error_guard` (neco.c 3451-3456, `errorGuard`), except for `neco_write_dl` (5302-5311; `part`: fewer
bytes than asked), `neco_getaddrinfo_dl` (6687-6702) and the fast way of `neco_stream_read_byte_dl`
(8131-8141; `part`: taken), which has no guard. -/
def report (c : Call) (old r e : Int) (part : Bool) : Int :=
  match c with
  | .posix .write => if 0 ≤ r ∧ part then PARTIALWRITE else (errorGuard r e false).lasterr
  | .gai => (errorGuard (if r = 0 then OK else if r = EAI_SYSTEM then ERROR else GAIERROR) e false).lasterr
  | .stream .readByte _ => if part then old else (errorGuard r e false).lasterr
  | _ => (errorGuard r e false).lasterr

/-- an object: `int64_t rtid`, 0 in zero memory, and the runtimes whose calls touched the contents
since they were initialised -/
structure Obj where
  rtid : Nat
  touched : List Nat := []
deriving DecidableEq, Repr

/-- what a thread is doing -/
inductive Pc
  /-- running user code, or the body of a call -/
  | idle
  /-- at the head of a call, with these checks to make -/
  | chk (c : Call) (l : List Check)
deriving DecidableEq, Repr

/-- an OS thread -/
structure Thread where
  /-- `rt`: the identifier of the runtime, neco.c 3637 -/
  rt : Option Nat := none
  /-- the main thread of the process -/
  main : Bool := false
  /-- `lasterr`, neco.c 3415 -/
  lasterr : Int := 0
  pc : Pc := .idle
  /-- calls whose body is running, of all the coroutines of the thread; `true` for the
  `neco_start` that made the runtime -/
  ops : List (Call × Bool) := []
  /-- the call that returned last and its value -/
  last : Option (Call × Int) := none
deriving DecidableEq, Repr

/-- the process -/
structure W where
  th : Nat → Thread
  obj : Nat → Option Obj
  /-- `next_runtime_id`, neco.c 3567 -/
  next : Nat

/-- at the start of the process; thread 0 is the main thread -/
def init : W := { th := fun t => { main := decide (t = 0) }, obj := fun _ => none, next := 1 }

inductive Act
  /-- the program has zero memory for a mutex, waitgroup or condition variable -/
  | zero (o : Nat)
  /-- a thread calls a function -/
  | call (t : Nat) (c : Call)
  /-- it goes on at the head of the function -/
  | go (t : Nat)
  /-- the body of the `i`-th running call touches the object `o` it was given -/
  | touch (t i o : Nat)
  /-- the coroutine that makes the `i`-th running call is terminated -/
  | drop (t i : Nat)
  /-- the body of the `i`-th running call returns `r`, with `errno` equal to `e`; `made`: the object it made -/
  | ret (t i : Nat) (r e : Int) (part : Bool) (made : Option Nat)
deriving DecidableEq, Repr

def W.setT (w : W) (t : Nat) (x : Thread) : W := { w with th := fun u => if u = t then x else w.th u }
def W.setO (w : W) (o : Nat) (x : Obj) : W := { w with obj := fun p => if p = o then some x else w.obj p }

/-- the call is refused with the code `k` by the check `q` -/
def refuse (w : W) (t : Nat) (c : Call) (q : Check) (k : Int) : W :=
  w.setT t { w.th t with
    pc := .idle
    lasterr := if loud c q then k else (w.th t).lasterr
    last := some (c, refusal c k) }

/-- the body of the call starts; `run` of neco.c 4339-4349 if it is `neco_start` of a thread without
a runtime -/
def enter (w : W) (t : Nat) (c : Call) : W :=
  match c, (w.th t).rt with
  | .start .., none => { w.setT t { w.th t with pc := .idle, rt := some w.next, ops := (c, true) :: (w.th t).ops } with next := w.next + 1 }
  | _, _ => w.setT t { w.th t with pc := .idle, ops := (c, false) :: (w.th t).ops }

/-- one check; `none`: the program gave an address that is no object -/
def check (w : W) (t : Nat) (c : Call) (q : Check) (l : List Check) : Option W :=
  let x := w.th t
  let next := w.setT t { x with pc := .chk c l }
  match q with
  | .arg ok => some (if ok then next else refuse w t c q INVAL)
  | .rt => some (if x.rt.isSome then next else refuse w t c q PERM)
  | .main => some (if x.rt.isSome && x.main then next else refuse w t c q PERM)
  | .gen ok => some (if ok then next else refuse w t c q NOTGENERATOR)
  | .own none => some (refuse w t c q INVAL)
  | .own (some o) =>
    match w.obj o, x.rt with
    | none, _ => none
    | some _, none => some (refuse w t c q PERM)
    | some b, some k => some (if b.rtid = k then next else refuse w t c q PERM)
  | .lazy none => some (refuse w t c q INVAL)
  | .lazy (some o) =>
    match w.obj o, x.rt with
    | none, _ => none
    | some _, none => some (refuse w t c q PERM)
    | some b, some k =>
      some (if b.rtid = 0 then w.setT t { x with pc := .chk c (.init (some o) :: l) }
        else if b.rtid = k then next else refuse w t c q PERM)
  | .init none => none
  | .init (some o) =>
    match w.obj o, x.rt with
    | some _, some k => some ((w.setO o { rtid := k }).setT t { x with pc := .chk c l })
    | _, _ => none

/-- a step of the process -/
def step (w : W) : Act → Option W
  | .zero o => match w.obj o with
    | none => some (w.setO o { rtid := 0 })
    | some _ => none
  | .call t c => match (w.th t).pc with
    | .idle => some (w.setT t { w.th t with pc := .chk c (checks c) })
    | _ => none
  | .go t => match (w.th t).pc with
    | .idle => none
    | .chk c [] => some (enter w t c)
    | .chk c (q :: l) => check w t c q l
  | .touch t i o => match (w.th t).pc, (w.th t).ops[i]?, (w.th t).rt, w.obj o with
    | .idle, some (c, _), some k, some b =>
      if some o ∈ objects c then some (w.setO o { b with touched := k :: b.touched }) else none
    | _, _, _, _ => none
  | .drop t i => match (w.th t).pc, (w.th t).ops[i]? with
    | .idle, some (_, false) => some (w.setT t { w.th t with ops := (w.th t).ops.eraseIdx i })
    | _, _ => none
  | .ret t i r e part made => match (w.th t).pc, (w.th t).ops[i]? with
    | .idle, some (c, root) =>
      let x := w.th t
      if root && decide (x.ops.length ≠ 1) then none
      else
        let y := { x with
          ops := x.ops.eraseIdx i
          lasterr := report c x.lasterr r e part
          rt := if root then none else x.rt
          last := some (c, r) }
        match made with
        | none => some (w.setT t y)
        | some o => match w.obj o, x.rt, c, root with
          | none, some k, .chanMake .., _ => some ((w.setO o { rtid := k }).setT t y)
          | none, some k, .genStart .., _ => some ((w.setO o { rtid := k }).setT t y)
          | none, some k, .streamMake .., _ => some ((w.setO o { rtid := k }).setT t y)
          | _, _, _, _ => none
    | _, _ => none

end Neco.Obj
