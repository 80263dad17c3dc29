import Verif.Model.Obj
/-! # What the documentation says about arguments, threads and objects -/
namespace Neco.Obj
open Neco.Err

/-- The arguments are within what the documentation allows, whoever calls.  No pointer is null. -/
def Legal : Call → Prop
  | .start fn argc => fn = true ∧ 0 ≤ argc
  | .pipe out | .getstats out => out = true
  | .sigWatch n | .sigUnwatch n => 1 ≤ n ∧ n ≤ 31
  | .wait mode => mode = 1 ∨ mode = 2
  | .dial net addr | .serve net addr =>
    (net = some "tcp" ∨ net = some "tcp4" ∨ net = some "tcp6" ∨ net = some "unix") ∧ addr ≠ none
  | .setType t => t = 1 ∨ t = 2
  | .setState t => t = 3 ∨ t = 4
  | .rand a => a = 0 ∨ a = 1
  | .work fn => fn = true
  | .chanMake out size cap => out = true ∧ size ≤ 2147483647 ∧ cap ≤ 2147483647
  | .chan _ c => c ≠ none
  | .select n cs => 0 ≤ n ∧ none ∉ cs
  | .genStart out size fn argc => out = true ∧ size ≤ 2147483647 ∧ fn = true ∧ 0 ≤ argc
  | .muInit o | .mu _ o | .wgInit o | .wg _ o | .cvInit o | .cvSignal o | .cvBroadcast o | .stream _ o => o ≠ none
  | .cvWait c m => c ≠ none ∧ m ≠ none
  | .streamMake out fd => out = true ∧ 0 ≤ fd
  | _ => True

/-- The functions a thread may call outside of a runtime: `neco_start` makes one, `neco_now` and
`neco_setnonblock` need none. -/
def Free : Call → Prop
  | .start .. | .now | .setnonblock => True
  | _ => False

/-- The functions only the main thread may call: signals. -/
def MainOnly : Call → Prop
  | .sigWatch _ | .sigUnwatch _ | .sigWait => True
  | _ => False

/-- `neco_mutex_init`, `neco_waitgroup_init`, `neco_cond_init` -/
def IsInit : Call → Prop
  | .muInit _ | .wgInit _ | .cvInit _ => True
  | _ => False

/-- The functions on objects that `neco_chan_make`, `neco_gen_start` or `neco_stream_make` has made;
zero memory is not one. -/
def Handle : Call → Prop
  | .chan .. | .select .. | .genYield _ | .stream .. => True
  | _ => False

/-- the call is given this object -/
def Uses (c : Call) (o : Nat) : Prop := some o ∈ objects c

/-- the object belongs to the runtime `k` -/
def Owned (w : W) (k o : Nat) : Prop := ∃ b, w.obj o = some b ∧ b.rtid = k
/-- the object is zero memory that no call has initialised -/
def Zero (w : W) (o : Nat) : Prop := Owned w 0 o
/-- the object belongs to a runtime other than `k` -/
def Foreign (w : W) (k o : Nat) : Prop := ∃ b, w.obj o = some b ∧ b.rtid ≠ 0 ∧ b.rtid ≠ k

/-- the thread is at the head of the call -/
def Head (w : W) (t : Nat) (c : Call) : Prop := ∃ l, (w.th t).pc = .chk c l
/-- in this step of the thread the call returned without its body having run -/
def Refused (w w' : W) (t : Nat) : Prop := (w'.th t).pc = .idle ∧ (w'.th t).ops = (w.th t).ops
/-- in this step of the thread the body of the call was entered -/
def Admitted (w w' : W) (t : Nat) (c : Call) : Prop :=
  (w'.th t).pc = .idle ∧ ∃ root, (w'.th t).ops = (c, root) :: (w.th t).ops

/-- What a refused call returns to say `k`: the functions with a POSIX model return -1 and say it
through `errno`, `neco_getaddrinfo` returns `EAI_SYSTEM` (-11 with glibc), the others return `k`. -/
def answer (c : Call) (k : Int) : Int :=
  match c with
  | .posix .read | .posix .write | .posix .accept | .posix .connect | .pipe _ => -1
  | .gai => -11
  | _ => k

/-- The functions that look at all of their plain arguments before they look at anything else. -/
def ArgsFirst : Call → Prop
  | .start .. | .pipe _ | .sigWatch _ | .sigUnwatch _ | .wait _ | .getstats _ | .setType _ | .setState _ | .rand _ | .work _
  | .chanMake .. | .streamMake .. | .muInit _ | .wgInit _ | .cvInit _ | .chan .. | .stream .. | .mu .. | .wg .. | .cvSignal _ | .cvBroadcast _ => True
  | _ => False

/-- states reached from the start of the process by steps that satisfy a condition -/
inductive Reach (ok : W → Act → Prop) : W → Prop
  | init : Reach ok init
  | step {w w' : W} {a : Act} : Reach ok w → ok w a → step w a = some w' → Reach ok w'

/-- states reached from a given one -/
inductive Steps (ok : W → Act → Prop) : W → W → Prop
  | refl (w : W) : Steps ok w w
  | step {w w' w'' : W} {a : Act} : Steps ok w w' → ok w' a → step w' a = some w'' → Steps ok w w''

/-- no condition on the program -/
def any (_ : W) (_ : Act) : Prop := True

/-- The program passes addresses of objects that exist. -/
def Valid (w : W) : Act → Prop
  | .call _ c => ∀ o, Uses c o → w.obj o ≠ none
  | _ => True

/-- The program does not let two threads make a call on an object at the same time while it is still
zero memory. -/
def NoRace (w : W) : Act → Prop
  | .call t c => ∀ o, Uses c o → Zero w o → ∀ u d, u ≠ t → Head w u d → ¬ Uses d o
  | _ => True

/-- The program does not call `neco_mutex_init`, `neco_waitgroup_init` or `neco_cond_init` in one
runtime on an object of another. -/
def NoSteal (w : W) : Act → Prop
  | .call t c => IsInit c → ∀ o k, Uses c o → (w.th t).rt = some k → ¬ Foreign w k o
  | _ => True

/-- a program that shares objects between threads with this minimum of care -/
def Careful (w : W) (a : Act) : Prop := Valid w a ∧ NoRace w a ∧ NoSteal w a

/-- What `neco_lasterr` should say after a call returned `r` with `errno` equal to `e`: nothing if it
succeeded, the code if it returned one, the code for `errno` if it returned -1.  `part`:
`neco_write` wrote fewer bytes than asked. -/
def told (c : Call) (r e : Int) (part : Bool) : Int :=
  match c with
  | .posix .write => if r = -1 then fromSys e else if r < 0 then r else if part then PARTIALWRITE else 0
  | .gai => if r = 0 then 0 else if r = EAI_SYSTEM then fromSys e else GAIERROR
  | _ => if r = -1 then fromSys e else if r < 0 then r else 0

end Neco.Obj
