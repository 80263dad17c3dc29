/-!
# neco_pipe

Model of `_pipe_` and `co_pipe`, neco.c 7765-7834: the caller (parent), the coroutine it starts (child), the kernel's listening socket with its queue of
connections, and other processes, which can connect to the socket too.  They take turns in any order; results of system calls are up to the environment.

Every call of the API is one step, or one step for each thing others can see: `neco_serve` returns a non-blocking listening descriptor or leaves nothing (`C63_unix_partial`,
`C63_fail`; the path is short), `neco_dial` a non-blocking connected one or leaves nothing (`C62_ok`, `C62_fail`), `neco_accept_dl` a non-blocking one
or leaves nothing (`C63_accept`), `neco_write` sends a prefix of its data, piece by piece (`C37_prefix_partial`), `neco_read_dl` gives
what one `read` gives (`C38_read`).

`fds` has what the call and its child have opened; closing something else is a fault.  The child uses variables of the parent by address
(`path`, `secret`, `fd0`): after the return of the parent they are gone.  `path` and `secret` are used by the child before it first waits,
and `neco_start` runs it at once, so only `fd0` matters: using it later is a fault.

Simplifications: the child is not resumed by others while it writes; the random generator works; `unlink` of the path and its name are left out;
`rt` and the argument are there (else -1, neco.c 7776-7783).
-/

namespace Neco.Pipe

/-- what a descriptor refers to: `near` is the end of a connection that called `connect`, `far` the end that `accept` gave -/
inductive Obj
  | listener
  | near (c : Nat)
  | far (c : Nat)
deriving DecidableEq, Repr

structure Fd where
  obj : Obj
  nonblock : Bool
deriving DecidableEq, Repr

/-- a connection to the listening socket -/
structure Conn where
  /-- made by another process -/
  foreign : Bool
  /-- ghost: all that the near end has sent -/
  sent : List UInt8 := []
  /-- what the far end has not read yet -/
  data : List UInt8 := []
  /-- the near end is closed -/
  closed : Bool := false
deriving DecidableEq, Repr

/-- where the parent is -/
inductive Pa
  /-- before `neco_serve`, neco.c 7795 -/
  | serve
  /-- before `neco_start`, neco.c 7799 -/
  | start
  /-- in `neco_accept_dl`, neco.c 7804 -/
  | accept
  /-- in `neco_read_dl`, neco.c 7810 -/
  | read
  /-- before `close(ln)`, neco.c 7818 -/
  | closeLn
  /-- in `neco_join`, neco.c 7823 -/
  | join
  /-- before the closes, neco.c 7829-7830 -/
  | closeFds
  | done
deriving DecidableEq, Repr

/-- where the child is -/
inductive Ch
  | none
  /-- in `neco_dial`, neco.c 7770 -/
  | dial
  /-- in `neco_write`, neco.c 7771: what is left to be sent -/
  | write (fd : Nat) (rest : List UInt8)
  /-- before `*fd_out = fd`, neco.c 7772 -/
  | assign (fd : Int)
  | ended
deriving DecidableEq, Repr

structure S where
  secret : List UInt8
  /-- descriptors -/
  fds : Nat → Option Fd := fun _ => none
  /-- connections; number `next` is the next one -/
  conns : Nat → Conn := fun _ => { foreign := true }
  next : Nat := 0
  /-- connections that wait to be accepted -/
  queue : List Nat := []
  pa : Pa := .serve
  ch : Ch := .none
  /-- variables of `_pipe_` -/
  ln : Int := -1
  fd0 : Int := -2
  fd1 : Int := -2
  ret : Int := -1
  errno : Int := 0
  pipefd : Int × Int
  /-- the cancel state of the caller is enabled -/
  enabled : Bool
  oldstate : Bool
  /-- something was closed that was not open, or a variable was used that is gone -/
  fault : Bool := false
  /-- ghost: the child was terminated by a cancelation -/
  killed : Bool := false

/-- the call begins, neco.c 7784-7794 -/
def init (secret : List UInt8) (pipefd : Int × Int) (enabled : Bool) (errno : Int) : S :=
  { secret := secret, pipefd := pipefd, enabled := false, oldstate := enabled, errno := errno }

def upd {α : Type} (f : Nat → α) (x : Nat) (v : α) : Nat → α := fun y => if y = x then v else f y

/-- `close` -/
def close (s : S) (fd : Int) : S :=
  if fd < 0 then s
  else if (s.fds fd.toNat).isSome then { s with fds := upd s.fds fd.toNat none }
  else { s with fault := true }

/-- the socket is open for connections -/
def listening (s : S) : Prop := 0 ≤ s.ln ∧ s.fds s.ln.toNat = some ⟨.listener, true⟩
instance (s : S) : Decidable (listening s) := by unfold listening; infer_instance

/-- a new connection waits in the queue -/
def connect (s : S) (c : Conn) : S := { s with conns := upd s.conns s.next c, next := s.next + 1, queue := s.queue ++ [s.next] }

/-- the near end of a connection sends bytes -/
def send (s : S) (c : Nat) (b : List UInt8) : S :=
  { s with conns := upd s.conns c { s.conns c with sent := (s.conns c).sent ++ b, data := (s.conns c).data ++ b } }

/-- the connection a near or far descriptor belongs to -/
def connOf (s : S) (fd : Nat) : Option Nat := match s.fds fd with
  | some ⟨.near c, _⟩ => some c
  | some ⟨.far c, _⟩ => some c
  | _ => none

inductive Ev
  /-- the parent goes on: `neco_serve` gave a descriptor, or failed with this `errno` -/
  | serveOk (fd : Nat)
  | serveErr (e : Int)
  /-- `neco_start` worked, or failed with this `errno` -/
  | startOk
  | startErr (e : Int)
  /-- `neco_accept_dl` gave a descriptor, or failed -/
  | acceptOk (fd : Nat)
  | acceptErr (e : Int)
  /-- `neco_read_dl` gave what is there, or failed -/
  | readOk
  | readErr (e : Int)
  | closeLn
  | joined
  | closeFds
  /-- the child goes on: `neco_dial` gave a descriptor; or failed with this code, after it connected or not -/
  | dialOk (fd : Nat)
  | dialErr (e : Int) (connected : Bool)
  /-- it sent so many bytes more; or `neco_write` returned -/
  | sent (n : Nat)
  | written
  | assign
  /-- it is canceled -/
  | killed
  /-- other processes -/
  | connect
  | send (c : Nat) (b : List UInt8)
  | hangup (c : Nat)
deriving Repr

/-- one step; `none`: not possible.  neco.c 7795-7833 (parent), 7770-7772 (child); `neco_errconv_to_sys` (neco.c 5528-5549) changes `errno` only for a
result of zero or an error code other than -1 -/
def step (s : S) : Ev → Option S
  | .serveOk fd =>
    if s.pa = .serve ∧ s.fds fd = none then
      some { s with ln := fd, fds := upd s.fds fd (some ⟨.listener, true⟩), pa := if 0 < fd then .start else .closeFds }
    else none
  | .serveErr e => if s.pa = .serve then some { s with errno := e, pa := .closeFds } else none
  | .startOk => if s.pa = .start then some { s with ch := .dial, errno := 0, pa := .accept } else none
  | .startErr e => if s.pa = .start then some { s with errno := e, pa := .closeLn } else none
  | .acceptOk fd => match s.queue with
    | c :: q =>
      if s.pa = .accept ∧ s.fds fd = none then
        some { s with queue := q, fds := upd s.fds fd (some ⟨.far c, true⟩), fd1 := fd, errno := if fd = 0 then 0 else s.errno, pa := if 0 < fd then .read else .closeLn }
      else none
    | [] => none
  | .acceptErr e => if s.pa = .accept then some { s with fd1 := -1, errno := e, pa := .closeLn } else none
  | .readOk =>
    if s.pa = .read then match connOf s s.fd1.toNat with
      | some c =>
        let data := (s.conns c).data.take 8
        if data = [] ∧ (s.conns c).closed = false then none
        else some { s with conns := upd s.conns c { s.conns c with data := (s.conns c).data.drop 8 }, errno := if data.length = 0 then 0 else s.errno,
                           ret := if data.length = 8 ∧ data = s.secret then 0 else -1, pa := .closeLn }
      | none => none
    else none
  | .readErr e => if s.pa = .read then some { s with errno := e, pa := .closeLn } else none
  | .closeLn => if s.pa = .closeLn then some { close s s.ln with queue := [], pa := if s.ret = 0 then .join else .closeFds } else none
  | .joined => if s.pa = .join ∧ s.ch = .ended then some { s with pipefd := (s.fd0, s.fd1), fd0 := -1, fd1 := -1, pa := .closeFds } else none
  | .closeFds => if s.pa = .closeFds then some { close (close s s.fd0) s.fd1 with enabled := s.oldstate, pa := .done } else none
  | .dialOk fd =>
    if s.ch = .dial ∧ listening s ∧ s.fds fd = none then
      some { connect s { foreign := false } with fds := upd s.fds fd (some ⟨.near s.next, true⟩), ch := .write fd s.secret }
    else none
  | .dialErr e connected =>
    if s.ch = .dial ∧ e < 0 ∧ (connected = true → listening s) then
      some { (if connected then connect s { foreign := false, closed := true } else s) with ch := .assign e }
    else none
  | .sent n => match s.ch with
    | .write fd rest => match connOf s fd with
      | some c => some { send s c (rest.take n) with ch := .write fd (rest.drop n) }
      | none => none
    | _ => none
  | .written => match s.ch with
    | .write fd _ => some { s with ch := .assign fd }
    | _ => none
  | .assign => match s.ch with
    | .assign fd => some (if s.pa = .done then { s with fault := true, ch := .ended } else { s with fd0 := fd, ch := .ended })
    | _ => none
  | .killed => match s.ch with
    | .dial => some { s with ch := .ended, killed := true }
    | .write _ _ => some { s with ch := .ended, killed := true }
    | _ => none
  | .connect => if listening s then some (connect s { foreign := true }) else none
  | .send c b => if c < s.next ∧ (s.conns c).foreign = true ∧ (s.conns c).closed = false then some (send s c b) else none
  | .hangup c => if c < s.next ∧ (s.conns c).foreign = true then some { s with conns := upd s.conns c { s.conns c with closed := true } } else none

/-- reachable -/
inductive Reach (s0 : S) : S → Prop
  | init : Reach s0 s0
  | step {s s' : S} {e : Ev} : Reach s0 s → step s e = some s' → Reach s0 s'

/-- run a list of events -/
def runs (s : S) : List Ev → Option S
  | [] => some s
  | e :: l => (step s e).bind (runs · l)

end Neco.Pipe
