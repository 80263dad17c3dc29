import Verif.Model.Io
import Verif.Model.Addr

/-!
# Connecting, listening and accepting

Model of `accept_dl`, `connect_dl` (neco.c 5391-5526), `getaddrinfo_from_tcp_addr_dl`, `setnonblock`, `dial_*` and `listen_*`
(neco.c 6770-7076).

What the world does during a call is given in advance: for every system call its result, for every round of a loop a *turn* (see
`Verif.Model.Io`).  A call that is given too little has not returned yet (`none`); a thing that a kernel does not do (to give out a
descriptor that is open, to answer a `connect` in a way that does not fit the state of the socket) is `none`, too.

The state `S` has what the call itself has opened and allocated, so other descriptors do not appear: closing a descriptor that the call
has not opened is a fault.  The cleanup handlers of the call are modelled, those of its caller are not.

Simplifications: `close` of an open descriptor works and keeps `errno`; panic on error is off; the flags of a descriptor other than
`O_NONBLOCK` are left out; the lookup of a name is one step with any result (`Verif.Model.Gai` has its inside).
-/

namespace Neco.Net
open Neco.Err Neco.Io

/-- errno values, asm-generic/errno.h -/
def sysEBADF : Int := 9
def sysEISCONN : Int := 106
def sysECONNREFUSED : Int := 111
def sysEALREADY : Int := 114
def sysEINPROGRESS : Int := 115

/-- addresses -/
inductive Addr
  /-- one that a name lookup gave -/
  | ip (n : Nat)
  | unix (path : List UInt8)
deriving DecidableEq, Repr

/-- the state of a stream socket -/
inductive St
  | fresh
  | connecting (a : Addr)
  | connected (a : Addr)
  /-- an attempt to connect has failed with this error, which was not reported yet -/
  | failed (e : Int)
  | bound (a : Addr)
  | listening (a : Addr)
  /-- made by `accept` -/
  | accepted
deriving DecidableEq, Repr

structure Sock where
  nonblock : Bool := false
  st : St := .fresh
deriving DecidableEq, Repr

/-- results of `connect` -/
inductive Cr
  | ok
  | isconn
  | again
  | inprogress
  /-- interrupted; did the attempt to connect begin? -/
  | intr (begun : Bool)
  | nomem
  | already
  | err (e : Int)
deriving DecidableEq, Repr

/-- what happened to an attempt to connect in the background -/
inductive Bg
  | none
  | up
  | down (e : Int)
deriving DecidableEq, Repr

structure SysC where
  bg : Bg := .none
  r : Cr
deriving DecidableEq, Repr

/-- `errno` for a result of `connect` -/
def Cr.errno : Cr → Int
  | .ok => 0 | .isconn => sysEISCONN | .again => sysEAGAIN | .inprogress => sysEINPROGRESS | .intr _ => sysEINTR | .nomem => sysENOMEM
  | .already => sysEALREADY | .err e => e

/-- is it an error that has no case of its own in `connect_dl`? -/
def other (e : Int) : Prop := e ≠ 0 ∧ e ≠ sysEISCONN ∧ e ≠ sysEAGAIN ∧ e ≠ sysEINPROGRESS ∧ e ≠ sysEINTR ∧ e ≠ sysENOMEM ∧ e ≠ sysEALREADY
instance (e : Int) : Decidable (other e) := by unfold other; infer_instance

/-- the background, connect(2) -/
def bg (st : St) (b : Bg) : Option St := match b, st with
  | .none, st => some st
  | .up, .connecting a => some (.connected a)
  | .down e, .connecting _ => if other e then some (.failed e) else none
  | _, _ => none

/-- connect(2) on a non-blocking stream socket: the new state; `none` if that result cannot be -/
def kconnect (a : Addr) (st : St) (r : Cr) : Option St := match st, r with
  | .fresh, .ok => some (.connected a)
  | .fresh, .inprogress => some (.connecting a)
  | .fresh, .intr b => some (if b then .connecting a else .fresh)
  | .fresh, .again => some .fresh
  | .fresh, .nomem => some .fresh
  | .fresh, .err e => if other e then some .fresh else none
  | .connecting b, .already => some (.connecting b)
  | .connecting b, .intr _ => some (.connecting b)
  | .connected b, .isconn => some (.connected b)
  | .connected b, .ok => some (.connected b)
  | .failed e, .err e' => if e = e' then some .fresh else none
  | .bound _, .ok => some (.connected a)
  | .bound _, .inprogress => some (.connecting a)
  | .bound b, .intr begun => some (if begun then .connecting a else .bound b)
  | .bound b, .again => some (.bound b)
  | .bound b, .nomem => some (.bound b)
  | .bound b, .err e => if other e then some (.bound b) else none
  | .listening b, .isconn => some (.listening b)
  | .accepted, .isconn => some .accepted
  | _, _ => none

/-- a handler on the cleanup stack, neco.c 6761-6763, 6849-6851, 6877-6880 -/
inductive Hdl
  | close (fd : Int)
  | free (m : Nat)
deriving DecidableEq, Repr

/-- what the call has -/
structure S where
  w : W := {}
  /-- descriptors it has open -/
  fds : List (Nat × Sock) := []
  /-- memory it has -/
  mem : List Nat := []
  /-- its cleanup handlers, last one first -/
  hs : List Hdl := []
  fault : Bool := false
  /-- ghost: the addresses it tried to connect to -/
  tried : List Addr := []
  /-- ghost: what it asked the resolver for: host, port and address family -/
  query : Option (List UInt8 × List UInt8 × Nat) := none

def S.err (s : S) (e : Int) : S := { s with w := { s.w with errno := e } }
def getFd (s : S) (fd : Nat) : Option Sock := (s.fds.find? (fun p => p.1 == fd)).map (·.2)
def setFd (s : S) (fd : Nat) (k : Sock) : S := { s with fds := s.fds.map (fun p => if p.1 = fd then (fd, k) else p) }
/-- the kernel gives out descriptor `fd` -/
def openFd (s : S) (fd : Nat) (k : Sock) : Option S := if (getFd s fd).isSome then none else some { s with fds := (fd, k) :: s.fds }
/-- `close` -/
def close (s : S) (fd : Int) : S :=
  if fd < 0 then s.err sysEBADF
  else if (getFd s fd.toNat).isSome then { s with fds := s.fds.filter (fun p => p.1 ≠ fd.toNat) }
  else { s with fault := true }
/-- `free0`, `freeaddrinfo` -/
def free (s : S) (m : Nat) : S := if m ∈ s.mem then { s with mem := s.mem.filter (· ≠ m) } else { s with fault := true }

/-- run a handler -/
def runH (s : S) : Hdl → S
  | .close fd => close s fd
  | .free m => free s m
/-- `neco_cleanup_push` -/
def push (s : S) (h : Hdl) : S := { s with hs := h :: s.hs }
/-- `neco_cleanup_pop(1)`, neco.c 7688-7695 -/
def pop (s : S) : S := match s.hs with
  | h :: l => runH { s with hs := l } h
  | [] => { s with fault := true }
/-- `coexit(true)` runs all handlers, neco.c 7720-7725 -/
def unwind (s : S) : List Hdl → S
  | [] => { s with hs := [] }
  | h :: l => unwind (runH s h) l

/-- a descriptor (or an error) -/
inductive SysFd
  | got (fd : Nat)
  | err (e : Int)
deriving DecidableEq, Repr

/-- `setnonblock`, neco.c 6819-6838; the error of `fcntl`, if any -/
def setNonblock (s : S) (fd : Nat) (e : Option Int) : Bool × S := match e, getFd s fd with
  | some e, _ => (false, s.err e)
  | none, some k => (true, setFd s fd { k with nonblock := true })
  | none, none => (false, { s with fault := true })

/-- `connect_dl`, neco.c 5449-5501, for a descriptor whose socket is `k`: the result and the socket -/
def connectDl (a : Addr) (dl : Int) : Bool → List (Turn SysC) → Sock → W → Option (Res × Sock × W)
  | _, [], _, _ => none
  | inprog, t :: ts, k, w =>
    let c := checkdl w dl t.now
    let w := c.2
    if c.1 ≠ OK then some (.ret (-1), k, { w with errno := dlErrno c.1 })
    else match (bg k.st t.sys.bg).bind (kconnect a · t.sys.r) with
      | none => none
      | some st =>
        let k := { k with st := st }
        let w := { w with errno := t.sys.r.errno }
        match t.sys.r with
        | .ok => some (.ret 0, k, w)
        | .isconn => some (.ret (if inprog then 0 else -1), k, w)
        | .again => some (.ret (-1), k, { w with errno := sysECONNREFUSED })
        | .inprogress =>
          let w := pass w t
          if w.canceled && w.async then some (.exit, k, w) else connectDl a dl true ts k w
        | .intr _ => connectDl a dl inprog ts k w
        | .nomem => connectDl a dl inprog ts k w
        | .already => some (.ret (-1), k, w)
        | .err _ => some (.ret (-1), k, w)

/-- `neco_connect_dl`, neco.c 5504-5510 -/
def connect (a : Addr) (dl : Int) (ts : List (Turn SysC)) (k : Sock) (w : W) : Option (Res × Sock × W) :=
  (connectDl a dl false ts k w).map fun (r, k, w) => ((guardA r w).1, k, (guardA r w).2)

/-- what the world does in one attempt to connect -/
structure Att where
  sock : SysFd
  /-- the error of `fcntl`, if any -/
  nb : Option Int := none
  ts : List (Turn SysC)

/-- `dial_connect_dl`, neco.c 6853-6875 -/
def dialConnect (a : Addr) (dl : Int) (t : Att) (s : S) : Option (Res × S) :=
  let s := { s with tried := s.tried ++ [a] }
  match t.sock with
  | .err e => some (.ret (-1), s.err e)
  | .got fd => (openFd s fd {}).bind fun s =>
    match setNonblock s fd t.nb with
    | (false, s) => some (.ret (-1), close s fd)
    | (true, s) =>
      let s := push s (.close fd)
      match getFd s fd with
      | none => none
      | some k => match connect a dl t.ts k s.w with
        | none => none
        | some (.exit, k, w) => some (.exit, { setFd s fd k with w := w })
        | some (.ret r, k, w) =>
          let s := { setFd s fd k with w := w }
          if r = 0 then some (.ret fd, pop { s with hs := .close (-1) :: s.hs.tail })
          else some (.ret r, pop s)

/-- how the lookup of a name ends -/
inductive Gai
  | exit
  /-- the result of `neco_getaddrinfo_dl` and `errno` -/
  | err (c e : Int)
  /-- a list of addresses, in this block of memory -/
  | ok (m : Nat) (l : List Addr)
deriving Repr

structure Look where
  /-- `malloc0` in `parse_tcp_addr` -/
  host : Option Nat
  res : Gai
  /-- the coroutine, after the lookup -/
  canceled : Bool := false
  deadlined : Bool := false

/-- `EAI_MEMORY`, `EAI_SYSTEM`, netdb.h -/
def eaiMEMORY : Int := -10
def eaiSYSTEM : Int := -11

/-- `neco_errconv_from_gai`, neco.c 6755-6765 -/
def fromGai (c errno : Int) : Int := if c = eaiMEMORY then NOMEM else if c = eaiSYSTEM then fromSys errno else GAIERROR

/-- the name to look up, neco.c 6785-6792; `AF_INET6` is 10 -/
def vhost (host : List UInt8) (vers : Nat) : List UInt8 :=
  if host = [] then (if vers = 10 then "::".toUTF8.toList else "0.0.0.0".toUTF8.toList) else host

/-- `getaddrinfo_from_tcp_addr_dl`, neco.c 6771-6812: the addresses and their memory, or an error, or the coroutine ends -/
inductive Lk
  | exit
  | err (c : Int)
  | ok (m : Nat) (a : Addr) (l : List Addr)

def lookup (addr : List UInt8) (vers : Nat) (x : Look) (s : S) : Option (Lk × S) :=
  match Addr.parse addr x.host.isSome with
  | none => some (.err INVAL, { s with fault := true })
  | some (.err c) => some (.err c, s)
  | some (.ok host port) => match x.host with
    | none => none
    | some h =>
      if h ∈ s.mem then none
      else
        let s := { s with mem := h :: s.mem }
        let s := push { s with query := some (vhost host vers, port, vers) } (.free h)
        let s := { s with w := { s.w with canceled := x.canceled, deadlined := x.deadlined } }
        match x.res with
        | .exit => some (.exit, s)
        | .err c e => if c = 0 then none else some (.err (fromGai c e), pop (s.err e))
        | .ok m l =>
          if m ∈ s.mem then none
          else match l with
            | [] => some (.err GAIERROR, pop s)
            | a :: l => some (.ok m a l, pop { s with mem := m :: s.mem })

/-- the loop in `dial_tcp_dl`, neco.c 6889-6897 -/
def dialLoop (dl : Int) : List Addr → List Att → S → Option (Res × S)
  | [], _, s => some (.ret (-1), s)
  | _ :: _, [], _ => none
  | a :: l, t :: ts, s => match dialConnect a dl t s with
    | none => none
    | some (.exit, s) => some (.exit, s)
    | some (.ret fd, s) => if fd ≠ -1 then some (.ret fd, s) else dialLoop dl l ts s

/-- what the world does during a dial -/
structure Dial where
  look : Look
  atts : List Att

/-- `dial_tcp_dl`, neco.c 6882-6903 -/
def dialTcp (addr : List UInt8) (vers : Nat) (dl : Int) (x : Dial) (s : S) : Option (Res × S) :=
  match lookup addr vers x.look s with
  | none => none
  | some (.exit, s) => some (.exit, s)
  | some (.err c, s) => some (.ret c, s)
  | some (.ok m a l, s) => match dialLoop dl (a :: l) x.atts (push s (.free m)) with
    | none => none
    | some (.exit, s) => some (.exit, s)
    | some (.ret fd, s) => some (.ret (if fd = -1 then fromSys s.w.errno else fd), pop s)

/-- `sizeof(unaddr.sun_path) - 1`, sys/un.h -/
def PATHMAX : Nat := 107

/-- `dial_unix_dl`, neco.c 6905-6923 -/
def dialUnix (addr : List UInt8) (dl : Int) (x : Dial) (s : S) : Option (Res × S) :=
  if PATHMAX < addr.length then some (.ret INVAL, s)
  else match x.atts with
    | [] => none
    | t :: _ => match dialConnect (.unix (addr.take PATHMAX)) dl t s with
      | none => none
      | some (.exit, s) => some (.exit, s)
      | some (.ret fd, s) => some (.ret (if fd = -1 then fromSys s.w.errno else fd), s)

/-- the end of a call: its guard, and the handlers if the coroutine ends -/
def finish (g : Res → W → Res × W) (r : Res) (s : S) : Res × S :=
  let (r, w) := g r s.w
  let s := { s with w := w }
  match r with
  | .exit => (.exit, unwind s s.hs)
  | r => (r, s)

/-- `dial_dl` and `neco_dial_dl`, neco.c 6925-6951; `co`: called by a coroutine -/
def dial (co : Bool) (network : Option String) (address : Option (List UInt8)) (dl : Int) (x : Dial) (s : S) : Option (Res × S) :=
  (if !co then some (.ret PERM, s)
  else match network, address with
    | some n, some a =>
      if n = "tcp" then dialTcp a 0 dl x s
      else if n = "tcp4" then dialTcp a 2 dl x s
      else if n = "tcp6" then dialTcp a 10 dl x s
      else if n = "unix" then dialUnix a dl x s
      else some (.ret INVAL, s)
    | _, _ => some (.ret INVAL, s)).map fun (r, s) => finish guardE r s

/-- what the world does during a serve: the errors of the system calls, if any -/
structure Serve where
  look : Look
  sock : SysFd
  opt : Option Int := none
  bind : Option Int := none
  listen : Option Int := none
  nb : Option Int := none

/-- `bind`; the socket is new -/
def bindFd (s : S) (fd : Nat) (a : Addr) (e : Option Int) : Bool × S := match e, getFd s fd with
  | some e, _ => (false, s.err e)
  | none, some k => (true, setFd s fd { k with st := .bound a })
  | none, none => (false, { s with fault := true })
/-- `listen`; the socket is bound -/
def listenFd (s : S) (fd : Nat) (e : Option Int) : Bool × S := match e, getFd s fd with
  | some e, _ => (false, s.err e)
  | none, some k => match k.st with
    | .bound a => (true, setFd s fd { k with st := .listening a })
    | _ => (false, s.err sysEINVAL)
  | none, none => (false, { s with fault := true })

/-- `listen_tcp_dl`, neco.c 6974-6998 -/
def listenTcp (addr : List UInt8) (vers : Nat) (x : Serve) (s : S) : Option (Res × S) :=
  match lookup addr vers x.look s with
  | none => none
  | some (.exit, s) => some (.exit, s)
  | some (.err c, s) => some (.ret c, s)
  | some (.ok m a _, s) => match x.sock with
    | .err e => some (.ret (-1), free (s.err e) m)
    | .got fd => (openFd s fd {}).map fun s =>
      let (ok, s) := match x.opt with
        | some e => (false, s.err e)
        | none => (true, s)
      let (ok, s) := if ok then bindFd s fd a x.bind else (false, s)
      let s := free s m
      let (ok, s) := if ok then listenFd s fd x.listen else (false, s)
      let (ok, s) := if ok then setNonblock s fd x.nb else (false, s)
      if ok then (.ret fd, s) else (.ret (-1), close s fd)

/-- `listen_unix_dl`, neco.c 7000-7030 -/
def listenUnix (addr : List UInt8) (x : Serve) (s : S) : Option (Res × S) := match x.sock with
  | .err e => some (.ret ERROR, s.err e)
  | .got fd => (openFd s fd {}).map fun s =>
    match bindFd s fd (.unix (addr.take PATHMAX)) x.bind with
    | (false, s) => (.ret ERROR, close s fd)
    | (true, s) => match listenFd s fd x.listen with
      | (false, s) => (.ret ERROR, close s fd)
      | (true, s) => match setNonblock s fd x.nb with
        | (false, s) => (.ret ERROR, close s fd)
        | (true, s) => (.ret fd, s)

/-- `serve_dl` and `neco_serve_dl`, neco.c 7032-7058 -/
def serve (co : Bool) (network : Option String) (address : Option (List UInt8)) (x : Serve) (s : S) : Option (Res × S) :=
  (match network, address with
    | some n, some a =>
      if !co then some (Res.ret PERM, s)
      else if n = "tcp" then listenTcp a 0 x s
      else if n = "tcp4" then listenTcp a 2 x s
      else if n = "tcp6" then listenTcp a 10 x s
      else if n = "unix" then listenUnix a x s
      else some (.ret INVAL, s)
    | _, _ => some (.ret INVAL, s)).map fun (r, s) => finish guardA r s

/-- `accept_dl`, neco.c 5391-5420 -/
def acceptDl (dl : Int) (nb : Option Int) : List (Turn SysFd) → S → Option (Res × S)
  | [], _ => none
  | t :: ts, s =>
    let c := checkdl s.w dl t.now
    let s := { s with w := c.2 }
    if c.1 ≠ OK then some (.ret (-1), s.err (dlErrno c.1))
    else match t.sys with
      | .err e =>
        let s := s.err e
        if e = sysEINTR ∨ e = sysEAGAIN then
          let s := { s with w := pass s.w t }
          if s.w.canceled && s.w.async then some (.exit, s) else acceptDl dl nb ts s
        else some (.ret (-1), s)
      | .got fd => (openFd s fd { st := .accepted }).map fun s =>
        match setNonblock s fd nb with
        | (false, s) => (.ret (-1), close s fd)
        | (true, s) => (.ret fd, s)

/-- `neco_accept_dl`, neco.c 5423-5429 -/
def accept (co : Bool) (dl : Int) (nb : Option Int) (ts : List (Turn SysFd)) (s : S) : Option (Res × S) :=
  (if !co then some (Res.ret (-1), s.err sysEPERM) else acceptDl dl nb ts s).map fun (r, s) => finish guardA r s

end Neco.Net
