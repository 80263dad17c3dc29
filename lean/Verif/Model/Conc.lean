import Verif.Spec.Queue
/-!
# Background threads and the queues

`neco_work` hands a coroutine to a background thread (neco.c 8715-8737), which puts it on `rt->iolist` when the work is done (`iowork`, 8706-8712), holding
`rt->iomu`. Meanwhile the thread of the runtime goes on working with its other queues, without a lock, and takes coroutines off `rt->iolist`, holding `rt->iomu`
(4193-4203). The queues are linked through the coroutines themselves (Model/Colist).

Here each read and each write of a link is a step, and the threads may be interleaved at any point.
The list `0` stands for `rt->iolist`, the others for all other queues of the runtime.
Simplifications: the work itself, and everything a background thread does before it locks `rt->iomu`, is not a step here (Model/Worker has the job queues).
-/
namespace Neco.Conc
open Neco.Colist

/-- an address: fixed, or in a register -/
inductive Arg
  | c (a : Addr)
  | r (k : Nat)
deriving DecidableEq

/-- machine instructions -/
inductive Ins
  /-- `r := a->prev` -/
  | ldP (k : Nat) (a : Arg)
  /-- `r := a->next` -/
  | ldN (k : Nat) (a : Arg)
  /-- `a->prev = v` -/
  | stP (a v : Arg)
  /-- `a->next = v` -/
  | stN (a v : Arg)
  /-- leave if the register holds this address -/
  | br (k : Nat) (a : Addr)
deriving DecidableEq

abbrev Regs := Nat → Addr

def Arg.val (g : Regs) : Arg → Addr
  | .c a => a
  | .r k => g k

/-- the address that an instruction reads or writes -/
def Ins.at (g : Regs) : Ins → Option Addr
  | .ldP _ a | .ldN _ a | .stP a _ | .stN a _ => some (a.val g)
  | .br _ _ => none

/-- does it write? -/
def Ins.writes : Ins → Bool
  | .stP _ _ | .stN _ _ => true
  | _ => false

def setR (g : Regs) (k : Nat) (a : Addr) : Regs := fun x => if x = k then a else g x

/-- execute one instruction; `true`: leave -/
def exec (m : Mem) (g : Regs) : Ins → Mem × Regs × Bool
  | .ldP k a => (m, setR g k (m.prev (a.val g)), false)
  | .ldN k a => (m, setR g k (m.next (a.val g)), false)
  | .stP a v => (m.setPrev (a.val g) (v.val g), g, false)
  | .stN a v => (m.setNext (a.val g) (v.val g), g, false)
  | .br k a => (m, g, decide (g k = a))

/-- `remove_from_list(co)`, neco.c 3280-3286 -/
def rmCode (x : Arg) : List Ins :=
  [.ldP 0 x, .ldN 1 x, .stN (.r 0) (.r 1), .ldN 1 x, .ldP 0 x, .stP (.r 1) (.r 0), .stN x x, .stP x x]

/-- `colist_push_back(list, co)`, neco.c 3295-3302, after the removal -/
def appCode (i n : Nat) : List Ins :=
  [.ldP 0 (.c (.tl i)), .stN (.r 0) (.c (.nd n)), .ldP 0 (.c (.tl i)), .stP (.c (.nd n)) (.r 0), .stN (.c (.nd n)) (.c (.tl i)), .stP (.c (.tl i)) (.c (.nd n))]

/-- `colist_pop_front(list)`, neco.c 3304-3311: the node ends up in register 2 -/
def popCode (i : Nat) : List Ins := [.ldN 2 (.c (.hd i)), .br 2 (.tl i)] ++ rmCode (.r 2)

/-- the operations that are executed concurrently -/
def code : Op → List Ins
  | .remove n => rmCode (.c (.nd n))
  | .push i n => rmCode (.c (.nd n)) ++ appCode i n
  | .pop i => popCode i
  | .empty i => [.ldN 2 (.c (.hd i))]
  | _ => []

/-- what an operation that is through returns; for `colist_pop_front` the node in register 2, or nothing if that is the end of the list -/
def result (g : Regs) : Op → Out
  | .pop i => .popped (if g 2 = .tl i then none else (g 2).node)
  | .empty i => .bool (decide (g 2 = .tl i))
  | _ => .unit

/-- an operation in progress -/
structure Run where
  op : Op
  code : List Ins
  regs : Regs

def Run.start (o : Op) : Run := ⟨o, Conc.code o, fun _ => .null⟩

structure S where
  mem : Mem
  /-- what the thread of the runtime is doing, not holding `rt->iomu` -/
  mop : Option Run := none
  /-- who holds `rt->iomu` and what it is doing: a background thread for coroutine `n` (`some n`) or the thread of the runtime -/
  crit : Option (Option Nat × Run) := none
  /-- the coroutines handed to the background threads whose work is not reported yet -/
  tasks : List Nat := []
  /-- the operations that are through, with their results, latest first -/
  log : List (Op × Out) := []
  /-- the queues of the runtime and the coroutines it may link, as they are meant to be -/
  own : Q
  /-- `rt->iolist` as it is meant to be -/
  io : Q
  /-- the results as they are meant to be -/
  spec : List (Op × Out) := []

/-- does the operation leave `rt->iolist` alone, and is it one of those above? -/
def foreign : Op → Bool
  | .remove _ => true
  | .push i _ | .pop i | .empty i => i != 0
  | _ => false

inductive Act
  /-- the thread of the runtime begins an operation on its queues -/
  | begin (o : Op)
  /-- it makes a step -/
  | main
  /-- it hands coroutine `n` to the background threads: `worker_submit`, neco.c 8729 -/
  | submit (n : Nat)
  /-- the work for `n` is done and its thread has locked `rt->iomu`, neco.c 8708-8709 -/
  | done (n : Nat)
  /-- the thread of the runtime has locked `rt->iomu` to take one off, neco.c 4196-4197 -/
  | take
  /-- whoever holds `rt->iomu` makes a step, neco.c 8710, 4198 -/
  | crit

/-- what the queues are meant to be after an operation -/
def after (q : Q) (o : Op) : Q × Out := (q.step o).getD (q, .unit)

/-- a coroutine is left out -/
def drop (q : Q) (n : Nat) : Q := { q with nodes := q.nodes.filter (· ≠ n) }
/-- a coroutine is added, on no queue -/
def add (q : Q) (n : Nat) : Q := { q with nodes := n :: q.nodes }

/-- one instruction of an operation in progress -/
def tick (m : Mem) (r : Run) : Mem × Run :=
  match r.code with
  | [] => (m, r)
  | c :: l => let x := exec m r.regs c; (x.1, { r with regs := x.2.1, code := if x.2.2 then [] else l })

/-- the thread of the runtime is between two operations -/
def mainFree (s : S) : Bool := s.mop.isNone && (match s.crit with | some (none, _) => false | _ => true)

/-- one step; `none` when it is not possible -/
def step (s : S) : Act → Option S
  | .begin o => if mainFree s = true ∧ foreign o = true then some { s with mop := some (.start o) } else none
  | .main => match s.mop with
    | none => none
    | some r =>
      if r.code = [] then
        some { s with mop := none, log := (r.op, result r.regs r.op) :: s.log, own := (after s.own r.op).1, spec := (r.op, (after s.own r.op).2) :: s.spec }
      else some { s with mem := (tick s.mem r).1, mop := some (tick s.mem r).2 }
  | .submit n => if mainFree s = true then some { s with tasks := n :: s.tasks, own := drop s.own n } else none
  | .done n => if s.crit.isNone ∧ n ∈ s.tasks then
      some { s with crit := some (some n, .start (.push 0 n)), tasks := s.tasks.erase n, io := add s.io n } else none
  | .take => if s.crit.isNone ∧ s.mop.isNone then some { s with crit := some (none, .start (.pop 0)) } else none
  | .crit => match s.crit with
    | none => none
    | some (w, r) =>
      if r.code = [] then
        let p := after s.io r.op
        let t := { s with crit := none, log := (r.op, result r.regs r.op) :: s.log, io := p.1, spec := (r.op, p.2) :: s.spec }
        some (match p.2 with
          | .popped (some n) => { t with io := drop p.1 n, own := add s.own n }
          | _ => t)
      else some { s with mem := (tick s.mem r).1, crit := some (w, (tick s.mem r).2) }

/-- execute a list of actions -/
def run (s : S) : List Act → Option S
  | [] => some s
  | a :: as => match step s a with | some t => run t as | none => none

/-- the states reachable from `s0` when every action satisfies `ok` in the state it is taken -/
inductive Reach (ok : S → Act → Prop) (s0 : S) : S → Prop
  | init : Reach ok s0 s0
  | step {s s'} (h : Reach ok s0 s) (a : Act) (hok : ok s a) (hs : step s a = some s') : Reach ok s0 s'

end Neco.Conc
