/-! # Control blocks of coroutines and the arguments given to them

Model of `coroutine_new`, `cofreeargs`, `coroutine_free`, `cleanup`, `start`, the parts of `coexit`, `rt_rc_step` and `rt_scheduler`
that free something, and `startv`: neco.c 3740-3900, 4245-4295, 4402-4416, 7744-7753.

The heap maps addresses to blocks; a new block has a new address (a block that was freed is never looked at again, so nothing is
lost by that).  Which allocations work is up to the environment.  Access to a block that is not there, or of a different kind, or outside of it,
and freeing a block that is not there, are faults.  The generator of a coroutine is a channel of which only the reference count matters
here (`Verif.Model.Ref` treats the pool of channels); the stack of a coroutine is a block (`Verif.Model.Stack` treats the stacks).
`argc * sizeof(void*)` does not overflow: `argc` is an `int`, `size_t` has 64 bits.  The order of the pool matters and is modelled, its
time stamps are not: `rt_rc_step` frees any number of control blocks from the front. -/

namespace Neco.Args

/-- where `co->argv` points -/
inductive Argv
  | null
  /-- to `co->aargv` -/
  | inl
  | heap (a : Nat)
deriving DecidableEq, Repr

/-- `struct coroutine`, neco.c 3323-3373, the fields about resources.  `none` in an array is memory that was not written yet -/
structure Co where
  stack : Nat := 0
  argc : Nat := 0
  argv : Argv := .null
  aargv : List (Option Int) := List.replicate 4 (some 0)
  gen : Option Nat := none
deriving DecidableEq, Repr

/-- a block of memory -/
inductive Blk
  | co (c : Co)
  | args (l : List (Option Int))
  /-- a channel and its reference count (the number in `rc` plus one) -/
  | chan (rc : Nat)
  | stack
deriving DecidableEq, Repr

structure S where
  heap : Nat → Option Blk := fun _ => none
  /-- the next address `malloc` gives -/
  next : Nat := 1
  /-- `rt->pool`, first one first -/
  pool : List Nat := []
  /-- coroutines started and not through with `coexit` -/
  active : List Nat := []
  /-- coroutines that have released their resources and have not been given to `cleanup` yet -/
  ending : List Nat := []
  ended : Bool := false
  fault : Bool := false
  /-- ghost: the arguments a coroutine was started with -/
  given : Nat → List Int := fun _ => []
  /-- ghost: the references to a channel the user has -/
  refs : Nat → Nat := fun _ => 0

/-- change memory -/
def set (s : S) (a : Nat) (b : Option Blk) : S := { s with heap := fun x => if x = a then b else s.heap x }
def crash (s : S) : S := { s with fault := true }

/-- `malloc0` that works -/
def malloc (s : S) (b : Blk) : Nat × S := (s.next, { set s s.next (some b) with next := s.next + 1 })
/-- `free0`, also `stack_put` -/
def free (s : S) (a : Nat) : S := if (s.heap a).isSome then set s a none else crash s

/-- `chan_fastretain`, neco.c 5867-5869 -/
def retain (s : S) (a : Nat) : S := match s.heap a with
  | some (.chan rc) => set s a (some (.chan (rc + 1)))
  | _ => crash s
/-- `chan_fastrelease`, neco.c 5919-5926: the last one frees -/
def release (s : S) (a : Nat) : S := match s.heap a with
  | some (.chan rc) => if rc = 1 then free s a else set s a (some (.chan (rc - 1)))
  | _ => crash s

/-- change a control block -/
def mod (s : S) (a : Nat) (f : Co → Co) : S := match s.heap a with
  | some (.co c) => set s a (some (.co (f c)))
  | _ => crash s

/-- `coroutine_new`, neco.c 3742-3761; do the allocations work? -/
def coNew (s : S) (mco mstack : Bool) : Option Nat × S :=
  if mco then
    let (a, s) := malloc s (.co {})
    if mstack then
      let (k, s) := malloc s .stack
      (some a, mod s a (fun c => { c with stack := k }))
    else (none, free s a)
  else (none, s)

/-- `cofreeargs`, neco.c 3763-3769 -/
def freeArgs (s : S) (a : Nat) : S := match s.heap a with
  | some (.co c) =>
    let s := match c.argv with
      | .heap p => free s p
      | _ => s
    mod s a (fun c => { c with argc := 0, argv := .null })
  | _ => crash s

/-- `coroutine_free`, neco.c 3776-3782 -/
def coFree (s : S) (a : Nat) : S :=
  let s := freeArgs s a
  match s.heap a with
  | some (.co c) => free (free s c.stack) a
  | _ => crash s

/-- write to the arguments of a control block: `co->argv[i] = v` -/
def put (s : S) (a i : Nat) (v : Int) : S := match s.heap a with
  | some (.co c) => match c.argv with
    | .null => crash s
    | .inl => if i < c.aargv.length then mod s a (fun c => { c with aargv := c.aargv.set i (some v) }) else crash s
    | .heap p => match s.heap p with
      | some (.args l) => if i < l.length then set s p (some (.args (l.set i (some v)))) else crash s
      | _ => crash s
  | _ => crash s
/-- the loop that copies the arguments, neco.c 3875-3877, from index `i` -/
def copy (s : S) (a i : Nat) : List Int → S
  | [] => s
  | v :: l => copy (put s a i v) a (i + 1) l

/-- which allocations work -/
structure Mem where
  co : Bool
  stack : Bool
  chan : Bool
  args : Bool
deriving DecidableEq, Repr

/-- the end of `start` when something failed, neco.c 3889-3899 -/
def fail (s : S) (co : Option Nat) : S := match co with
  | none => s
  | some a => match s.heap a with
    | some (.co c) => match c.gen with
      | some g => coFree (release (release s g) g) a
      | none => coFree s a
    | _ => crash s

/-- the control block for a new coroutine, neco.c 3841-3851 -/
def take (s : S) (m : Mem) : Option Nat × S := match s.pool with
  | a :: l => (some a, { s with pool := l })
  | [] => coNew s m.co m.stack

/-- the arguments of a new coroutine, neco.c 3866-3877; `none` if there is no memory -/
def setArgs (s : S) (a : Nat) (args : List Int) (m : Mem) : Option S :=
  if args.length ≤ 4 then
    some (copy (mod s a (fun c => { c with argv := .inl, argc := args.length })) a 0 args)
  else if m.args then
    let (p, s) := malloc s (.args (List.replicate args.length none))
    some (copy (mod s a (fun c => { c with argv := .heap p, argc := args.length })) a 0 args)
  else none

/-- `start`, neco.c 3837-3900, until the coroutine exists; the result is the control block (or `NECO_NOMEM`), and what was stored in `*gen` -/
def start (s : S) (args : List Int) (gen : Bool) (m : Mem) : Option Nat × Option Nat × S :=
  match take s m with
  | (none, s) => (none, none, s)
  | (some a, s) =>
    let run (s : S) (g : Option Nat) : Option Nat × Option Nat × S := match setArgs s a args m with
      | none => (none, g, fail (mod s a (fun c => { c with argv := .null })) (some a))
      | some s => (some a, g, { s with active := a :: s.active, given := fun x => if x = a then args else s.given x
                                       refs := fun x => if some x = g then s.refs x + 1 else s.refs x })
    if gen then
      if m.chan then
        let (g, s) := malloc s (.chan 1)
        run (retain (mod s a (fun c => { c with gen := some g })) g) (some g)
      else (none, none, fail s (some a))
    else run s none

/-- the part of `coexit` that releases resources, neco.c 7744-7753 -/
def release_ (s : S) (a : Nat) : S := match s.heap a with
  | some (.co c) =>
    let s := match c.gen with
      | some g => mod (release s g) a (fun c => { c with gen := none })
      | none => s
    freeArgs s a
  | _ => crash s

/-- free control blocks, neco.c 4269, 4290-4294 -/
def freeAll (s : S) : List Nat → S
  | [] => s
  | a :: l => freeAll (coFree s a) l

/-- what can happen -/
inductive Act
  /-- `neco_start`, `neco_gen_start` -/
  | start (args : List Int) (gen : Bool) (m : Mem)
  /-- a coroutine goes through `coexit` (again) -/
  | exit (a : Nat)
  /-- a coroutine has ended: `cleanup`, neco.c 3802-3817 -/
  | cleanup (a : Nat)
  /-- `rt_rc_step` frees the first `n` control blocks of the pool, neco.c 4262-4270 -/
  | rc (n : Nat)
  /-- `neco_gen_retain`, `neco_gen_release` -/
  | gretain (g : Nat)
  | grelease (g : Nat)
  /-- the runtime ends, neco.c 4286-4294 -/
  | finish
deriving DecidableEq, Repr

def step (s : S) (x : Act) : Option S :=
  if s.ended ∨ s.fault then none else match x with
  | .start args gen m => some (start s args gen m).2.2
  | .exit a =>
    if a ∈ s.active then some { release_ s a with active := s.active.filter (· ≠ a), ending := a :: s.ending }
    else if a ∈ s.ending then some (release_ s a)
    else none
  | .cleanup a => if a ∈ s.ending then some { s with ending := s.ending.filter (· ≠ a), pool := s.pool ++ [a] } else none
  | .rc n => some { freeAll s (s.pool.take n) with pool := s.pool.drop n }
  | .gretain g => if 0 < s.refs g then some { retain s g with refs := fun x => if x = g then s.refs x + 1 else s.refs x } else none
  | .grelease g => if 0 < s.refs g then some { release s g with refs := fun x => if x = g then s.refs x - 1 else s.refs x } else none
  | .finish => if s.active = [] ∧ s.ending = [] then some { freeAll s s.pool with pool := [], ended := true } else none

inductive Reach : S → Prop
  | init : Reach {}
  | step {s s' : S} (r : Reach s) (x : Act) (hs : step s x = some s') : Reach s'

end Neco.Args
