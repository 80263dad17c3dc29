/-!
# Background workers

Model of `worker.c` as embedded in neco.c (lines 2623-2834): the threads that carry out the functions given to
`neco_work`.

The threads of a worker do not share anything, so this is the model of one `struct worker_thread`: a ring of
entries protected by a mutex, the thread serving it, and the callers of `worker_submit`.  Everything between
locking and unlocking the mutex is one step; the mutex is free only while a job runs and while the thread waits,
so these are all the interleavings.

`pthread_create` is a parameter: it works, or reports an error number (then the thread id it was to
store is undefined, POSIX: either still zero or something else), or `-1`, which POSIX does not allow but which is
what the code tests for.
-/

namespace Neco.Worker

/-- what `pthread_create` does -/
inductive Create
  | ok
  /-- an error number; is the id zero afterwards? -/
  | err (zero : Bool)
  | minus1
deriving DecidableEq, Repr

/-- where the thread is -/
inductive Pc
  /-- there is no thread -/
  | none
  /-- about to look at the ring, neco.c 2760; also before it takes the mutex the first time -/
  | loop
  /-- carrying out a job, neco.c 2769-2771 -/
  | busy (j : Nat)
  /-- in `pthread_cond_timedwait`, neco.c 2777 -/
  | wait
deriving DecidableEq, Repr

/-- `struct worker_thread`, neco.c 2661-2670.  A job is a number, for function and argument -/
structure T where
  nentries : Nat
  /-- the ring -/
  entries : Nat → Nat := fun _ => 0
  pos : Nat := 0
  len : Nat := 0
  /-- `th` is not zero -/
  th : Bool := false
  fin : Bool := false
  pc : Pc := .none
  /-- ghost: jobs accepted, newest last -/
  accepted : List Nat := []
  /-- ghost: jobs started, newest last -/
  started : List Nat := []
  /-- ghost: jobs finished, newest last -/
  finished : List Nat := []
  /-- ghost: an access outside of the ring -/
  fault : Bool := false

/-- number of entries: `worker_new`, neco.c 2713-2714 -/
def nentriesOf (n : Int) : Nat := if n ≤ 0 then 32 else if n > 65536 then 65536 else n.toNat
/-- number of threads: `worker_new`, neco.c 2711-2712 -/
def nthreadsOf (n : Int) : Nat := if n ≤ 0 then 2 else if n > 65536 then 65536 else n.toNat

/-- which thread a job goes to, neco.c 2806-2810; `next` is a 32 bit counter -/
def pick (pin : Int) (next nthreads : Nat) : Nat := (if pin < 0 then next % 2 ^ 32 else pin.toNat) % nthreads

/-- a new thread structure, neco.c 2732-2751 -/
def new (n : Int) : T := { nentries := nentriesOf n }

/-- `worker_submit` on this thread structure, neco.c 2812-2832 -/
def submit (t : T) (j : Nat) (c : Create) : T × Bool :=
  if t.len < t.nentries then
    let pos := t.pos + t.len
    let pos := if pos ≥ t.nentries then pos - t.nentries else pos
    let t := { t with entries := fun k => if k = pos then j else t.entries k, len := t.len + 1, fault := t.fault || !decide (pos < t.nentries) }
    if t.th = false then
      match c with
      | .ok => ({ t with th := true, pc := .loop, accepted := t.accepted ++ [j] }, true)
      | .err z => ({ t with th := !z, accepted := t.accepted ++ [j] }, true)
      | .minus1 => (t, false)
    else ({ t with accepted := t.accepted ++ [j] }, true)
  else (t, false)

/-- the thread, neco.c 2755-2788: one step; `none`: it is not there.
In `wait` it goes on when signaled, after a second or spuriously. -/
def thread (t : T) : Option T :=
  match t.pc with
  | .none => none
  | .loop =>
    if t.len > 0 then
      let j := t.entries t.pos
      let pos := t.pos + 1
      let pos := if pos = t.nentries then 0 else pos
      some { t with pos := pos, len := t.len - 1, pc := .busy j, started := t.started ++ [j], fault := t.fault || !decide (t.pos < t.nentries) }
    else some { t with pc := .wait }
  | .busy j => some { t with pc := .loop, finished := t.finished ++ [j] }
  | .wait => if t.len = 0 then some { t with th := false, fin := false, pc := .none } else some { t with pc := .loop }

/-- what can happen -/
inductive Act
  | submit (j : Nat) (c : Create)
  | thread
  /-- `worker_free` marks the thread, neco.c 2685-2687 -/
  | close
deriving DecidableEq, Repr

/-- one step -/
def step (t : T) : Act → Option T
  | .submit j c => some (submit t j c).1
  | .thread => thread t
  | .close => some { t with fin := true }

/-- what can happen to a thread structure; `ok` restricts the actions -/
inductive Reach (ok : Act → Prop) (n : Int) : T → Prop
  | init : Reach ok n (new n)
  | step {t t' : T} (r : Reach ok n t) (a : Act) (h : ok a) (hs : step t a = some t') : Reach ok n t'

/-- run the thread for some steps -/
def serve : Nat → T → T
  | 0, t => t
  | k + 1, t => match thread t with
    | some t' => serve k t'
    | none => t

end Neco.Worker
