import Verif.Model.Err

/-!
# What is reported about a name lookup

Model of how `neco_getaddrinfo` (neco.c 6593-6701), `neco_errconv_from_gai` (6755-6765) and the lookup of `neco_dial`
(6772-6814, 6945-6949) pass on the result of the system's `getaddrinfo`: by what they return, by `errno`, by `neco_lasterr` and by
`neco_gai_lasterr` (3554-3562).  The three variables belong to the thread; the coroutines of one thread take turns.

Simplified: how the result gets from the helper thread to the coroutine (`Verif.Model.Gai` has it); `neco_dial` after the lookup
(`Verif.Model.Net` has it); panic on error is off; the call is made by a coroutine.
-/

namespace Neco.Look
open Neco.Err

/-- netdb.h -/
def EAI_NONAME : Int := -2
def EAI_FAIL : Int := -4
def EAI_MEMORY : Int := -10
def EAI_SYSTEM : Int := -11

/-- which function was called -/
inductive Via
  /-- `neco_getaddrinfo` -/
  | direct
  /-- `neco_dial` with a tcp address -/
  | dial
deriving DecidableEq, Repr

/-- where a coroutine is -/
inductive Pc
  /-- in its own code -/
  | idle
  /-- in `neco_read_dl`, neco.c 6672 -/
  | wait (v : Via)
  /-- in `coyield`, neco.c 6680; the lookup returned `r`, with `errno` = `e`; `n`: and no addresses -/
  | yield (v : Via) (r e : Int) (n : Bool)
  /-- terminated -/
  | gone
deriving DecidableEq, Repr

/-- what happened -/
inductive Ev
  /-- a lookup of coroutine `i` came to the result `r`, with `errno` = `e`, and the call returned `c`; at that moment `errno`, `neco_lasterr()` and
  `neco_gai_lasterr()` are the last three numbers -/
  | ret (i : Nat) (v : Via) (c r e : Int) (n : Bool) (errno lasterr gai : Int)
  /-- the lookup of a `neco_dial` gave addresses, and it goes on with them -/
  | went (i : Nat)
  | cancel (i : Nat)
  | gone (i : Nat)
deriving DecidableEq, Repr

structure S where
  /-- variables of the thread -/
  errno : Int := 0
  lasterr : Int := 0
  gai : Int := 0
  pc : Nat → Pc := fun _ => .idle
  /-- the cancel type is `NECO_CANCEL_ASYNC` -/
  async : Nat → Bool := fun _ => true
  /-- a cancelation is pending -/
  canceled : Nat → Bool := fun _ => false
  /-- newest first -/
  log : List Ev := []

/-- how a lookup can end without a wait -/
inductive Early
  /-- `checkdl`, neco.c 6601-6605 -/
  | canceled
  | timedout
  /-- the name is an address: the result of `getaddrinfo`, neco.c 6610 -/
  | addr (r e : Int) (n : Bool)
  /-- neco.c 6617-6619 -/
  | nomem
  /-- `pipe`, `fcntl` or `pthread_create` failed, neco.c 6625-6664 -/
  | sys (e : Int)
deriving DecidableEq, Repr

inductive Act
  /-- the code of coroutine `i` makes a system call that sets `errno` -/
  | user (i : Nat) (e : Int)
  /-- coroutine `i` makes another public call, which returns `r` and leaves `errno` like that -/
  | call (i : Nat) (r e : Int)
  /-- somebody cancels coroutine `i` -/
  | cancel (i : Nat)
  | setAsync (i : Nat) (b : Bool)
  /-- a lookup begins and ends at once -/
  | early (i : Nat) (v : Via) (x : Early)
  /-- a lookup begins and waits -/
  | begin (i : Nat) (v : Via)
  /-- the wait is over: the result of the helper thread is there -/
  | got (i : Nat) (r e : Int) (n : Bool)
  /-- `neco_read_dl` returns -1 with this `errno` -/
  | fail (i : Nat) (e : Int)
  /-- `coyield` returns -/
  | resumed (i : Nat)
deriving DecidableEq, Repr

def setPc (s : S) (i : Nat) (p : Pc) : S := { s with pc := fun k => if k = i then p else s.pc k }
def setCanceled (s : S) (i : Nat) (b : Bool) : S := { s with canceled := fun k => if k = i then b else s.canceled k }

/-- `coexit(true)` of `async_error_guard` or `coyield`, neco.c 3466-3474, 3654-3660 -/
def exit (s : S) (i : Nat) : S := { setPc s i .gone with log := .gone i :: s.log }

/-- the call returns `c`, after `error_guard`, neco.c 3453-3458 (again, for `neco_getaddrinfo`) -/
def give (s : S) (i : Nat) (v : Via) (c r e : Int) (n : Bool) : S :=
  { setPc s i .idle with log := .ret i v c r e n s.errno s.lasterr s.gai :: s.log }

/-- `neco_errconv_from_gai`, neco.c 6755-6765 -/
def errconv (s : S) (r : Int) : Int × S :=
  if r = EAI_MEMORY then (NOMEM, s)
  else if r = EAI_SYSTEM then (fromSys s.errno, s)
  else (GAIERROR, { s with gai := r })

/-- neco.c 6691-6698 -/
def necoErr (r : Int) : Int := if r = 0 then OK else if r = EAI_SYSTEM then ERROR else GAIERROR

/-- `neco_getaddrinfo_dl` after `getaddrinfo_dl` returned, neco.c 6690-6700, and what comes after it: in `getaddrinfo_from_tcp_addr_dl`, neco.c 6797-6813, and at
the end of `neco_dial_dl`, neco.c 6945-6949.  `e`: ghost, `errno` as the lookup left it. -/
def finish (s : S) (i : Nat) (v : Via) (r e : Int) (n : Bool) : S :=
  let g := asyncErrorGuard (necoErr r) s.errno false (s.async i)
  let s := { s with lasterr := g.lasterr }
  if g.exited then exit s i
  else match v with
    | .direct => give s i .direct r r e n
    | .dial =>
      if r ≠ 0 then
        let x := errconv s r
        give { x.2 with lasterr := (errorGuard x.1 s.errno false).lasterr } i .dial x.1 r e n
      else
        let s := { s with gai := EAI_FAIL }
        if n then give { s with lasterr := (errorGuard GAIERROR s.errno false).lasterr } i .dial GAIERROR r e n
        else { setPc { s with gai := EAI_FAIL } i .idle with log := .went i :: s.log }

/-- one step; `none`: it cannot happen.  The system calls do not answer `ECANCELED`. -/
def step (s : S) : Act → Option S
  | .user i e => if s.pc i = .idle then some { s with errno := e } else none
  | .call i r e =>
    if s.pc i = .idle then
      let g := errorGuard r e false
      some { s with errno := e, lasterr := g.lasterr }
    else none
  | .cancel i => some { setCanceled s i true with log := .cancel i :: s.log }
  | .setAsync i b => if s.pc i = .idle then some { s with async := fun k => if k = i then b else s.async k } else none
  | .early i v x =>
    if s.pc i = .idle then match x with
      | .canceled => if s.canceled i then some (finish { setCanceled s i false with errno := sysECANCELED } i v EAI_SYSTEM sysECANCELED false) else none
      | .timedout => some (finish { s with errno := sysETIMEDOUT } i v EAI_SYSTEM sysETIMEDOUT false)
      | .addr r e n => if e = sysECANCELED then none else some (finish { s with errno := e } i v r e n)
      | .nomem => some (finish { s with errno := sysENOMEM } i v EAI_MEMORY sysENOMEM false)
      | .sys e => if e = sysECANCELED then none else some (finish { s with errno := e } i v EAI_SYSTEM e false)
    else none
  | .begin i v => if s.pc i = .idle then some (setPc s i (.wait v)) else none
  | .got i r e n => match s.pc i with
    | .wait v => if e = sysECANCELED then none else some (setPc { s with errno := e, lasterr := 0 } i (.yield v r e n))
    | _ => none
  | .fail i e => match s.pc i with
    | .wait v =>
      if e = sysECANCELED ∧ s.canceled i = false then none
      else
        let s := if e = sysECANCELED then setCanceled s i false else s
        let s := { s with errno := e }
        -- `async_error_guard` of `neco_read_dl`
        let g := asyncErrorGuard (-1) e false (s.async i)
        let s := { s with lasterr := g.lasterr }
        if g.exited then some (exit s i) else some (finish s i v EAI_SYSTEM e false)
    | _ => none
  | .resumed i => match s.pc i with
    | .yield v r e n =>
      -- neco.c 3656-3659
      if s.canceled i && s.async i then some (exit s i) else some (finish s i v r e n)
    | _ => none

/-- what can happen; `ok` restricts the actions -/
inductive Reach (ok : Act → Prop) : S → Prop
  | init : Reach ok {}
  | step {s s' : S} (a : Act) (r : Reach ok s) (hok : ok a) (h : step s a = some s') : Reach ok s'

def run (s : S) : List Act → Option S
  | [] => some s
  | a :: as => (step s a).bind (run · as)

end Neco.Look
