/-!
# Waiting for descriptors: the event queue and what the system does with it

`wait_dl` (neco.c 4897-4958), `wait_dl_addevent` (4855-4871), the event step of the main loop (`rt_sched_event_step`, 4078-4139) and the closing of an
unused event queue (`rt_rc_step`, 4242-4250), on Linux, together with the part of the system they talk to: descriptors that are opened, duplicated and
closed by the program, files that become ready, and epoll queues.

`Model/Rt` has the waiting coroutines too, with one registration per descriptor number and a system that reports whatever it likes; here the registrations belong
to the open file behind the number, as they do in the system (epoll(7), "Questions and answers"), they may be refused, and a queue comes and goes.

Simplifications: one runtime; what woke a coroutine other than an event (cancelation, deadline) is one action; the coroutines that wait are a list (the tree of `evmap` is
in `Model/Maps`), its length stands for `rt->nevwaiters` (exact by `C33`); the order in which they are made ready is in `Model/Rt`; the program does not touch the descriptor of the queue.
`Waiter.file` and the argument of `Wake.event` are ghosts: no decision of the code reads them.
-/
namespace Neco.Evq

/-- what the system knows of an open file: there is something to read, there is room to write, there is an error or the other side is gone (`EPOLLERR`, `EPOLLHUP`) -/
structure Ready where
  inn : Bool := false
  out : Bool := false
  err : Bool := false
deriving DecidableEq, Repr

/-- A registration in a queue: epoll keeps one per descriptor number *and* open file. `rd`, `wr`: `EPOLLIN`, `EPOLLOUT` asked for;
both false after a report (`EPOLLONESHOT`). -/
structure Entry where
  fd : Nat
  file : Nat
  rd : Bool
  wr : Bool
deriving DecidableEq, Repr

/-- has a coroutine been made ready, and why -/
inductive Wake
  | asleep
  /-- a report of this open file -/
  | event (file : Nat)
  /-- canceled, or the deadline has passed -/
  | other
deriving DecidableEq, Repr

/-- a coroutine inside of `wait_dl`, neco.c 4937-4951: `co->evfd`, `co->evkind`, and the open file the number stood for when it called -/
structure Waiter where
  co : Nat
  fd : Nat
  wr : Bool
  file : Nat
  wake : Wake := .asleep
deriving DecidableEq, Repr

structure S where
  /-- the open file of each descriptor of the program -/
  file : Nat → Option Nat := fun _ => none
  /-- can the file be polled? (a file on a disk cannot: `EPERM`) -/
  can : Nat → Bool := fun _ => false
  rdy : Nat → Ready := fun _ => {}
  /-- the epoll queues, by their descriptor -/
  q : Nat → Option (List Entry) := fun _ => none
  /-- `rt->qfd`, neco.c 3599 -/
  qfd : Nat := 0
  /-- `rt->qfdcreated`, neco.c 3600 -/
  made : Int := 0
  now : Int := 0
  /-- `rt->evwaiters`, neco.c 3588 -/
  wait : List Waiter := []
  /-- the results of the calls that have returned or failed: coroutine, and whether it was the error -1 -/
  log : List (Nat × Bool) := []
  /-- `must` has failed (neco.c 4097) -/
  dead : Bool := false

/-- `evexists`, neco.c 3683-3687 -/
def evexists (s : S) (fd : Nat) (wr : Bool) : Bool := s.wait.any (fun w => w.fd == fd && w.wr == wr)

def Entry.is (fd f : Nat) (e : Entry) : Bool := e.fd == fd && e.file == f

/-- `wait_dl_addevent`, neco.c 4855-4871: the registration asked for -/
def ask (s : S) (fd f : Nat) (wr : Bool) : Entry :=
  if wr = false then ⟨fd, f, true, evexists s fd true⟩ else ⟨fd, f, evexists s fd false, true⟩

/-- `EPOLL_CTL_MOD`, or else `EPOLL_CTL_ADD` (neco.c 4866-4869) -/
def ctl (e : Entry) (l : List Entry) : List Entry :=
  if l.any (Entry.is e.fd e.file) = true then l.map (fun x => if x.is e.fd e.file = true then e else x) else e :: l

def setq (s : S) (k : Nat) (l : Option (List Entry)) : S := { s with q := fun j => if j = k then l else s.q j }

/-- `wait_dl` from the creation of the queue on, neco.c 4915-4932: `mk` is what `epoll_create1` returns if it is called (`none`: -1) -/
def queue (s : S) (mk : Option Nat) : Option S :=
  if s.qfd = 0 then
    match mk with
    | none => none
    | some k => some { setq s k (some []) with qfd := k, made := s.now }
  else some s

/-- `wait_dl`, neco.c 4897-4946, up to the context switch. `full`: the system has no room for one more registration (`ENOMEM`, `ENOSPC`). -/
def wait (s : S) (i fd : Nat) (wr : Bool) (mk : Option Nat) (full : Bool) : S :=
  match queue s mk with
  | none => { s with log := (i, true) :: s.log }
  | some t =>
    match t.q t.qfd, t.file fd with
    | some l, some f =>
      if t.can f = false ∨ (full = true ∧ l.any (Entry.is fd f) = false) then { t with log := (i, true) :: t.log }
      else { setq t t.qfd (some (ctl (ask t fd f wr) l)) with wait := ⟨i, fd, wr, f, .asleep⟩ :: t.wait }
    -- `EBADF`
    | _, _ => { t with log := (i, true) :: t.log }

/-- what the system reports for a registration; an error is always reported, but not once the registration is disarmed -/
def Entry.report (s : S) (e : Entry) : Ready :=
  { inn := e.rd && (s.rdy e.file).inn, out := e.wr && (s.rdy e.file).out, err := (e.rd || e.wr) && (s.rdy e.file).err }

/-- is there something to report -/
def Entry.hot (s : S) (e : Entry) : Bool := (e.report s).inn || (e.report s).out || (e.report s).err

/-- `NEVENTS`, neco.c 4076 -/
def NEVENTS : Nat := 16

/-- What `epoll_wait` may return: registrations with something to report, none twice, all of them if there is room for all. -/
def mayReport (s : S) (l es : List Entry) : Prop :=
  es.Nodup ∧ (∀ e ∈ es, e ∈ l ∧ e.hot s = true) ∧ es.length ≤ NEVENTS ∧ (es.length = NEVENTS ∨ ∀ e ∈ l, e.hot s = true → e ∈ es)

instance (s : S) (l es : List Entry) : Decidable (mayReport s l es) := by unfold mayReport; infer_instance

/-- one pass of the loop over the waiters of a descriptor in one direction, neco.c 4132-4136; `sco_resume` does nothing if it was made ready before -/
def rouse (fd f : Nat) (wr : Bool) (l : List Waiter) : List Waiter :=
  l.map (fun w => if w.fd = fd ∧ w.wr = wr ∧ w.wake = .asleep then { w with wake := .event f } else w)

/-- one event, neco.c 4100-4138: first the readers, then the writers; the error flags are not looked at -/
def handle (s : S) (e : Entry) (l : List Waiter) : List Waiter :=
  let l1 := if (e.report s).inn = true then rouse e.fd e.file false l else l
  if (e.report s).out = true then rouse e.fd e.file true l1 else l1

/-- the events, one after the other -/
def handleAll (s : S) : List Entry → List Waiter → List Waiter
  | [], l => l
  | e :: q, l => handleAll s q (handle s e l)

/-- the registrations that were reported are disarmed -/
def disarm (es l : List Entry) : List Entry := l.map (fun e => if e ∈ es then { e with rd := false, wr := false } else e)

/-- `rt_sched_event_step`, neco.c 4078-4139; `epoll_wait` on what is not a queue fails, and `must` ends the program -/
def poll (s : S) (es : List Entry) : Option S :=
  match s.q s.qfd with
  | none => some { s with dead := true }
  | some l => if mayReport s l es then some { setq s s.qfd (some (disarm es l)) with wait := handleAll s es s.wait } else none

/-- `rt_rc_step`, neco.c 4242-4250; 100 ms -/
def rc (s : S) : S :=
  if s.wait.length = 0 ∧ s.qfd > 0 ∧ s.now - s.made > 100000000 then { setq s s.qfd none with qfd := 0 } else s

/-- `close(fd)` by the program: when no descriptor stands for the file any more its registrations vanish (epoll(7)) -/
def close (s : S) (fd f : Nat) (last : Bool) : S :=
  { s with file := fun k => if k = fd then none else s.file k,
           q := fun k => if last = true then (s.q k).map (fun l => l.filter (fun e => e.file != f)) else s.q k }

inductive Act
  /-- the program opens the file `f`, new, with descriptor `fd` -/
  | opens (fd f : Nat) (can : Bool)
  /-- `dup2(fd, fd')`, `fd'` not in use -/
  | dup (fd fd' : Nat)
  /-- the program closes `fd`; is it the last one of its file? -/
  | close (fd : Nat) (last : Bool)
  | ready (f : Nat) (r : Ready)
  | tick
  | wait (co fd : Nat) (wr : Bool) (mk : Option Nat) (full : Bool)
  /-- the event step of the main loop; what `epoll_wait` returns -/
  | poll (es : List Entry)
  /-- a coroutine is canceled or its deadline has passed -/
  | other (co : Nat)
  /-- a coroutine that was made ready goes on and returns, neco.c 4948-4957 -/
  | run (co : Nat)
  | rc
deriving DecidableEq, Repr

/-- is a descriptor number free? -/
def free (s : S) (fd : Nat) : Bool := (s.file fd).isNone && (s.q fd).isNone

/-- `opens` needs a file that no descriptor stands for and that is registered nowhere; `close` needs to be told truly whether it is the last. As both range over
all descriptors they are relations. -/
inductive Step : S → Act → S → Prop
  | opens {s fd f b} : s.dead = false → free s fd = true → (∀ k, s.file k ≠ some f) → (∀ k l, s.q k = some l → ∀ e ∈ l, e.file ≠ f) → (∀ w ∈ s.wait, w.file ≠ f) →
      Step s (.opens fd f b) { s with file := fun k => if k = fd then some f else s.file k, can := fun k => if k = f then b else s.can k }
  | dup {s fd fd' f} : s.dead = false → s.file fd = some f → free s fd' = true →
      Step s (.dup fd fd') { s with file := fun k => if k = fd' then some f else s.file k }
  | close {s fd f last} : s.dead = false → s.file fd = some f → (last = true ↔ ∀ k, k ≠ fd → s.file k ≠ some f) → Step s (.close fd last) (close s fd f last)
  | ready {s f r} : s.dead = false → Step s (.ready f r) { s with rdy := fun k => if k = f then r else s.rdy k }
  | tick {s} : s.dead = false → Step s .tick { s with now := s.now + 1 }
  | wait {s i fd wr mk full} : s.dead = false → (∀ w ∈ s.wait, w.co ≠ i) → (∀ k, mk = some k → free s k = true) → Step s (.wait i fd wr mk full) (wait s i fd wr mk full)
  | poll {s es t} : s.dead = false → s.wait ≠ [] → poll s es = some t → Step s (.poll es) t
  | other {s i} : s.dead = false → Step s (.other i) { s with wait := s.wait.map (fun w => if w.co = i ∧ w.wake = .asleep then { w with wake := .other } else w) }
  | run {s i} : s.dead = false → (∃ w ∈ s.wait, w.co = i ∧ w.wake ≠ .asleep) →
      Step s (.run i) { s with wait := s.wait.filter (fun w => w.co != i), log := (i, false) :: s.log }
  | rc {s} : s.dead = false → Step s .rc (rc s)

def init : S := {}

/-- executions in which each action meets a condition -/
inductive Reach (ok : S → Act → Prop) : S → Prop
  | init : Reach ok init
  | step {s s' a} : Reach ok s → ok s a → Step s a s' → Reach ok s'

end Neco.Evq
