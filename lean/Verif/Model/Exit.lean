/-!
# The end of a coroutine, with cleanup handlers that are programs

The main model (`Model/Rt.lean`) lets a cleanup handler run in one piece.  In the code a handler is an
ordinary function: it may suspend, push and pop handlers of its own, call `neco_exit`, and be reached by a
cancel.  This file models one coroutine's C stack of activations and its chain of handler records, and what
`coexit` does with them (neco.c 7678-7763), with handlers that do any of this.

Simplified: what handlers and the function compute; which API call it is that suspends.  Returning between
a push and its pop is not modelled here (the record would dangle: see `C32_not_general`).
-/
namespace Neco.Exit

/-- A handler record (neco.c 3256-3260, `struct cleanup`): a name given in order of pushing, whether it has
a routine (7693 tests for NULL), and the activation whose frame holds it (neco.h 231: the record is a local
array of the block that the macro opens). -/
structure Rec where
  id : Nat
  routine : Bool
  owner : Nat
deriving DecidableEq, Repr

/-- An activation on the coroutine's C stack: user code (0 is the function the coroutine was started with,
any other number is the handler of that name) with the number of its pushes that are still open, or
`coexit(true)` in its loop. -/
inductive Frame
  | user (id opn : Nat)
  | exit
deriving DecidableEq, Repr

/-- Why `coexit(true)` was called: `neco_exit` (neco.c 8461-8465), or a cancel found by `coyield` (3655-3659)
or by `async_error_guard` (3466-3474). -/
inductive Why | call | cancel
deriving DecidableEq, Repr

/-- What can be observed, in order. -/
inductive Ev
  | act (f : Nat)                          -- user code of activation `f` does something
  | pushed (f h : Nat) (routine : Bool)    -- `f` pushed handler `h`
  | popped (f h : Nat) (execute : Bool)    -- `f` popped, and `h` was what came off
  | unwound (h : Nat)                      -- `coexit` took `h` off
  | start (h : Nat)                        -- the routine of `h` is called
  | finish (h : Nat)                       -- the routine of `h` returns
  | exit (f : Nat) (w : Why)               -- `f` is terminated
  | cancel                                 -- somebody's cancel reaches the coroutine
  | join (w : Nat)                         -- `w` begins to wait for the end of the coroutine
  | leave (w : Nat)                        -- `w` gives up waiting
  | gone                                   -- removed from the map: its id is no longer known
  | woke (w : Nat)                         -- `w` is woken
  | dead                                   -- the coroutine does not run again
deriving DecidableEq, Repr

/-- Where the coroutine is: in user code, suspended in a call, in the `k`-th last yield at the end of
`coexit` (neco.c 7756-7758, 3671-3679), or no more. -/
inductive Phase | run | wait | tail (k : Nat) | dead
deriving DecidableEq, Repr

structure S where
  frames : List Frame := [.user 0 0]
  chain : List Rec := []            -- co->cleanup
  next : Nat := 1
  canceled : Bool := false          -- co->canceled
  async : Bool := false             -- co->canceltype == NECO_CANCEL_ASYNC
  inMap : Bool := true
  waiters : List Nat := []          -- co->cancellist, co->joinlist
  phase : Phase := .run
  log : List Ev := []
deriving DecidableEq, Repr

/-- The end of `coexit` (neco.c 7726-7762): out of the map, everybody who waits is scheduled; if there was
anybody, two yields follow (3671-3679: `nresumers > 0` because they were just scheduled). -/
def ending (s : S) : S :=
  let l := s.log ++ [.gone] ++ s.waiters.map .woke
  if s.waiters = [] then { s with inMap := false, phase := .dead, log := l ++ [.dead] }
  else { s with inMap := false, waiters := [], phase := .tail 1, log := l }

/-- The loop of `coexit` (neco.c 7719-7724 with `cleanup_pop(1)`, 7688-7695), up to the next call of a
routine or to the end of the chain: the record is taken off before its routine is called; a record without
a routine is passed over. -/
def unwind : List Rec → S → S
  | [], s => ending { s with chain := [] }
  | r :: t, s =>
    if r.routine then
      { s with chain := t, frames := .user r.id 0 :: s.frames, phase := .run,
               log := s.log ++ [.unwound r.id] ++ [.start r.id] }
    else unwind t { s with log := s.log ++ [.unwound r.id] }

/-- The activation whose code is running. -/
def topId : List Frame → Nat
  | .user f _ :: _ => f
  | .exit :: t => topId t
  | [] => 0

/-- `coexit(true)` (neco.c 7715-7724), called on top of whatever is running. -/
def coexit (w : Why) (s : S) : S :=
  unwind s.chain { s with frames := .exit :: s.frames, log := s.log ++ [.exit (topId s.frames) w] }

inductive Op
  | push (routine : Bool) | pop (execute : Bool) | exit | ret
  | call           -- a call that suspends the coroutine
  | canceledCall   -- a call that finds the cancel and returns NECO_CANCELED without suspending
  | setType (async : Bool)
  | resume         -- the scheduler continues the coroutine
  | cancel         -- another coroutine's cancel arrives
  | join (w : Nat) -- another coroutine begins to wait for the end of this one
  | leave (w : Nat) -- and gives up
deriving DecidableEq, Repr

/-- One step; `none` if it cannot be what happens next. -/
def step (o : Op) (s : S) : Option S :=
  match o, s.phase, s.frames with
  -- neco.c 7678-7686
  | .push r, .run, .user f n :: t =>
    some { s with frames := .user f (n + 1) :: t, chain := ⟨s.next, r, f⟩ :: s.chain, next := s.next + 1,
                  log := s.log ++ [.act f] ++ [.pushed f s.next r] }
  -- neco.c 7688-7695; the macro of neco.h 233 closes the block that the push opened
  | .pop e, .run, .user f (n + 1) :: t =>
    match s.chain with
    | [] => none
    | r :: c =>
      let s' := { s with frames := .user f n :: t, chain := c,
                         log := s.log ++ [.act f] ++ [.popped f r.id e] }
      if e && r.routine then
        some { s' with frames := .user r.id 0 :: s'.frames, log := s'.log ++ [.start r.id] }
      else some s'
  -- neco.c 8461-8465
  | .exit, .run, .user f _ :: _ => some (coexit .call { s with log := s.log ++ [.act f] })
  -- the function ends: neco.c 3830-3833 (`coexit(false)`: no handler is run); a handler ends: back to the
  -- code that popped it, or to the loop of `coexit`
  | .ret, .run, .user f 0 :: t =>
    match t with
    | [] => some (ending { s with frames := [], log := s.log ++ [.act f] })
    | .exit :: _ =>
      some (unwind s.chain { s with frames := t, log := s.log ++ [.act f] ++ [.finish f] })
    | .user _ _ :: _ => some { s with frames := t, log := s.log ++ [.act f] ++ [.finish f] }
  | .call, .run, .user f _ :: _ => some { s with phase := .wait, log := s.log ++ [.act f] }
  -- neco.c 3466-3474: the flag is taken back by the call that reports it
  | .canceledCall, .run, .user f _ :: _ =>
    if s.canceled then
      let s' := { s with canceled := false, log := s.log ++ [.act f] }
      if s.async then some (coexit .cancel s') else some s'
    else none
  -- neco.c 7636-7649
  | .setType a, .run, .user f _ :: _ => some { s with async := a, log := s.log ++ [.act f] }
  -- neco.c 3654-3660: `coyield` looks at the flag and leaves it as it is
  | .resume, .wait, _ =>
    if s.canceled && s.async then some (coexit .cancel { s with phase := .run })
    else some { s with phase := .run }
  | .resume, .tail k, _ =>
    if s.canceled && s.async then some (coexit .cancel s)
    else match k with
      | 0 => some { s with phase := .dead, log := s.log ++ [.dead] }
      | k + 1 => some { s with phase := .tail k }
  -- neco.c 4645-4661: a cancel finds its target in the map
  | .cancel, .wait, _ =>
    if s.inMap then some { s with canceled := true, log := s.log ++ [.cancel] } else none
  -- neco.c 7857-7870: so does a join; a coroutine waits for one thing at a time
  | .join w, .wait, _ =>
    if s.inMap && !s.waiters.contains w then
      some { s with waiters := s.waiters ++ [w], log := s.log ++ [.join w] }
    else none
  -- neco.c 7871 (4667): it stops waiting, because of its deadline or of a cancel
  | .leave w, .wait, _ =>
    if s.waiters.contains w then
      some { s with waiters := s.waiters.erase w, log := s.log ++ [.leave w] }
    else none
  | _, _, _ => none

def init : S := {}

/-- Every execution. -/
inductive Reach : S → Prop
  | init : Reach init
  | step {s s' : S} (o : Op) (r : Reach s) (h : step o s = some s') : Reach s'

/-- The execution of a list of operations. -/
def run : List Op → S → Option S
  | [], s => some s
  | o :: os, s => (step o s).bind (run os)

end Neco.Exit
