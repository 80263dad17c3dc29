/-! # neco_getaddrinfo: a coroutine and its helper thread

Model of `getaddrinfo_dl` and `getaddrinfo_th`, neco.c 6470-6701, for any number of calls.  The coroutine and the thread of a call take turns in any order;
what the system does (allocations, `pipe`, `pthread_create`, the lookup) and when the wait of the coroutine ends is up to the environment.
Loads and stores are in one order (the data is handed over by `write` and `read` of a pipe and by an atomic).
Not modelled: `dlopen` for FreeBSD; addresses (`is_ip_address`, no thread is used). -/

namespace Neco.Gai

/-- `EAI_SYSTEM`, `EAI_MEMORY`, of the system's netdb.h -/
def EAI_SYSTEM : Int := -11
def EAI_MEMORY : Int := -10

/-- what a call allocates or opens -/
inductive Obj
  /-- `struct getaddrinfo_args`, neco.c 6470-6482 -/
  | args
  | node
  | service
  | hints
  /-- the addresses `getaddrinfo` found -/
  | res
  /-- the two ends of the pipe -/
  | fd0
  | fd1
deriving DecidableEq, Repr

/-- where the coroutine is -/
inductive Co
  /-- in `neco_read_dl`, neco.c 6672 -/
  | wait
  /-- in `coyield`, neco.c 6680; the result so far -/
  | yield (ret : Int)
  /-- at `neco_cleanup_pop`, neco.c 6682 -/
  | pop (ret : Int)
  /-- the call returned -/
  | done (ret : Int)
  /-- terminated: the cleanup handlers were run -/
  | exited
deriving DecidableEq, Repr

/-- where the thread is -/
inductive Th
  /-- there is no thread -/
  | none
  /-- neco.c 6557-6558 -/
  | lookup
  /-- neco.c 6559 -/
  | write
  /-- neco.c 6560-6562 -/
  | spin
  /-- neco.c 6563 -/
  | free
  /-- neco.c 6564 -/
  | count
  | done
deriving DecidableEq, Repr

/-- a call of `neco_getaddrinfo` -/
structure Call where
  /-- is the argument given? -/
  node : Bool
  service : Bool
  hints : Bool
  /-- `args->node` and so on: the pointer is not null -/
  hasNode : Bool := false
  hasService : Bool := false
  hasHints : Bool := false
  hasRes : Bool := false
  /-- `args->fds` -/
  fds0 : Nat := 0
  fds1 : Nat := 0
  returned : Bool := false
  ret : Int := 0
  errnum : Int := 0
  /-- integers in the pipe -/
  pipe : Nat := 0
  co : Co := .wait
  th : Th := .none
  /-- `*res` was set by the call, to the addresses -/
  given : Bool := false
  /-- ghost: what is allocated or open -/
  live : List Obj := []
  /-- ghost: use after free, double free, or a failed `must` -/
  fault : Bool := false
deriving DecidableEq, Repr

/-- `malloc`, `pipe`: a new object -/
def new (o : Obj) (c : Call) : Call := { c with live := o :: c.live }
/-- an access -/
def use (o : Obj) (c : Call) : Call := if o ∈ c.live then c else { c with fault := true }
/-- `free`, `close`, `freeaddrinfo` -/
def drop (o : Obj) (c : Call) : Call := if o ∈ c.live then { c with live := c.live.erase o } else { c with fault := true }

/-- `gai_args_free`, neco.c 6484-6503 -/
def argsFree (c : Call) : Call :=
  let c := use .args c
  let c := if c.hasService then drop .service c else c
  let c := if c.hasNode then drop .node c else c
  let c := if c.hasHints then drop .hints c else c
  let c := if c.hasRes then drop .res c else c
  let c := if c.fds0 ≠ 0 then drop .fd0 c else c
  let c := if c.fds1 ≠ 0 then drop .fd1 c else c
  drop .args c

/-- what the system answers while a call is set up -/
structure Env where
  mArgs : Bool := true
  mNode : Bool := true
  mService : Bool := true
  mHints : Bool := true
  pipe : Option (Nat × Nat) := some (3, 4)
  nonblock : Bool := true
  create : Bool := true
deriving DecidableEq, Repr

/-- `gai_args_new`, neco.c 6505-6545: did it work? -/
def argsNew (e : Env) (c : Call) : Bool × Call :=
  if !e.mArgs then (false, c)
  else
    let c := new .args c
    if c.node && !e.mNode then (false, argsFree c)
    else
      let c := if c.node then { new .node c with hasNode := true } else c
      if c.service && !e.mService then (false, argsFree c)
      else
        let c := if c.service then { new .service c with hasService := true } else c
        if c.hints && !e.mHints then (false, argsFree c)
        else (true, if c.hints then { new .hints c with hasHints := true } else c)

/-- `getaddrinfo_dl` up to the wait, neco.c 6616-6671, for a name that is no address; `c` is a call where nothing is done -/
def setup (e : Env) (c : Call) : Call :=
  let n := argsNew e c
  let c := n.2
  if !n.1 then { c with co := .done EAI_MEMORY }
  else match e.pipe with
    | none => { argsFree c with co := .done EAI_SYSTEM }
    | some (a, b) =>
      let c := { new .fd1 (new .fd0 c) with fds0 := a, fds1 := b }
      if !e.nonblock then { argsFree c with co := .done EAI_SYSTEM }
      else if !e.create then { argsFree c with co := .done EAI_SYSTEM }
      else { c with th := .lookup, co := .wait }

/-- what can happen in a call -/
inductive Act
  /-- `neco_read_dl` returns the integer from the pipe -/
  | readOk
  /-- `neco_read_dl` returns -1: canceled, timed out, or an error -/
  | readErr
  /-- the coroutine is terminated in `neco_read_dl` or in `coyield`: `coexit` runs `cleanup_gai` -/
  | exit
  /-- `coyield` returns -/
  | resumed
  /-- `neco_cleanup_pop(1)` -/
  | pop
  /-- `getaddrinfo` returns to the thread: its result, and addresses if it is 0 -/
  | looked (ret : Int) (errnum : Int)
  /-- the thread goes on -/
  | thread
deriving DecidableEq, Repr

/-- `cleanup_gai`, neco.c 6578-6583 -/
def cleanup (c : Call) : Call := { use .args c with returned := true }

/-- one step of the coroutine, neco.c 6672-6683, or of the thread, neco.c 6555-6566 -/
def act (c : Call) : Act → Option Call
  | .readOk =>
    if c.co = .wait ∧ c.pipe > 0 then
      let c := use .fd0 (use .args c)
      -- steal the result, neco.c 6676-6679
      some { c with pipe := c.pipe - 1, hasRes := false, given := c.hasRes, co := .yield c.ret }
    else none
  | .readErr => if c.co = .wait then some { use .fd0 (use .args c) with co := .pop EAI_SYSTEM } else none
  | .exit => match c.co with
    | .wait => some { cleanup (use .fd0 (use .args c)) with co := .exited }
    | .yield _ => some { cleanup c with co := .exited }
    | _ => none
  | .resumed => match c.co with
    | .yield r => some { c with co := .pop r }
    | _ => none
  | .pop => match c.co with
    | .pop r => some { cleanup c with co := .done r }
    | _ => none
  | .looked ret errnum =>
    if c.th = .lookup then
      let c := use .args c
      let c := if c.hasNode then use .node c else c
      let c := if c.hasService then use .service c else c
      let c := if c.hasHints then use .hints c else c
      let c := if ret = 0 then { new .res c with hasRes := true } else c
      some { c with ret := ret, errnum := errnum, th := .write }
    else none
  | .thread => match c.th with
    | .write => some { use .fd1 (use .args c) with pipe := c.pipe + 1, th := .spin }
    | .spin => some (let c := use .args c; if c.returned then { c with th := .free } else c)
    | .free => some { argsFree c with th := .count }
    | .count => some { c with th := .done }
    | _ => none

/-- the program: the calls of `neco_getaddrinfo`, and `getaddrinfo_th_counter`, neco.c 6547 -/
structure S where
  calls : List Call := []
  counter : Int := 0
deriving Repr

/-- a step of the program -/
inductive Step
  /-- a coroutine calls `neco_getaddrinfo` -/
  | call (node service hints : Bool) (e : Env)
  /-- a step of the call `i` -/
  | on (i : Nat) (a : Act)

/-- a step; the counter goes up before `pthread_create` and down again if it fails, neco.c 6657-6664, and down at the end of the thread -/
def step (s : S) : Step → Option S
  | .call n v h e =>
    let c := setup e { node := n, service := v, hints := h }
    some { calls := s.calls ++ [c], counter := if c.th = .none then s.counter else s.counter + 1 }
  | .on i a => match s.calls[i]? with
    | none => none
    | some c => match act c a with
      | none => none
      | some c' => some { calls := s.calls.set i c', counter := if c.th = .count ∧ c'.th = .done then s.counter - 1 else s.counter }

/-- what can happen in a program -/
inductive Reach : S → Prop
  | init : Reach {}
  | step {s s' : S} (r : Reach s) (a : Step) (h : step s a = some s') : Reach s'

end Neco.Gai
