import Verif.Model.Sco
/-!
# Switching between stacks

The switching code of `llco.c` (neco.c 1119-1316), below the scheduler `sco.c` (Model/Sco), and who gives back the stack of a coroutine that has ended:
not the coroutine itself, which still runs on it, but whoever runs next (`llco_cleanup_last`, 1162-1175).

Contexts are numbered in the order they are made; 0 is the thread itself (`llco_thread`). The few instructions that exchange the registers (`_llco_asm_switch`) are one step.
Simplifications: no Valgrind, no unwinding, no `longjmp` and WebAssembly variants; stacks are large enough (1284-1287).
`on`, `sus`, `place`, `gone`, `born`, `ended` and `rel` are ghosts: no decision of the code reads them; `fault` marks undefined behaviour.
-/
namespace Neco.Llco

/-- `struct llco_desc`, neco.c 174-181 -/
structure Desc where
  stack : Nat
  udata : Nat
  /-- is there a cleanup function? -/
  cleanup : Bool
deriving DecidableEq, Repr

/-- `llco_thread = { 0 }`, neco.c 1148 -/
def Desc.zero : Desc := ⟨0, 0, false⟩

/-- where the context that runs is -/
inductive Pc
  /-- in the program -/
  | user
  /-- just switched to, before `llco_cleanup_last` (neco.c 1271, 1302) -/
  | back
  /-- just made, before `llco_cleanup_last` (neco.c 1179) -/
  | fresh
  /-- after it, neco.c 1184-1185 -/
  | enter
  /-- in the cleanup function (neco.c 1169); then `enter` or `user` -/
  | callback (new : Bool)
  /-- the process has ended -/
  | dead
deriving DecidableEq, Repr

structure S where
  /-- `llco_cur`, neco.c 1149; `none`: NULL -/
  cur : Option Nat := none
  /-- `llco_desc`, neco.c 1150 -/
  desc : Desc := .zero
  /-- `llco_cleanup_needed`, neco.c 1151 -/
  needed : Bool := false
  /-- `llco_cleanup_desc`, neco.c 1152 -/
  cdesc : Desc := .zero
  /-- `llco_cleanup_active`, neco.c 1153 -/
  active : Bool := false
  /-- the `desc` in the `struct llco` of each context (neco.c 1124, 1184), which is on the stack of the context -/
  self : Nat → Desc := fun _ => .zero
  pc : Pc := .user
  /-- the context that runs -/
  on : Nat := 0
  /-- how many contexts were made -/
  made : Nat := 0
  /-- the registers of the context were saved when it was left -/
  sus : Nat → Bool := fun _ => false
  /-- the stack that the context runs on -/
  place : Nat → Nat := fun _ => 0
  /-- that stack was given back since -/
  gone : Nat → Bool := fun _ => false
  /-- what the context was started with -/
  born : Nat → Desc := fun _ => .zero
  /-- the contexts that were left for good, latest first -/
  ended : List Nat := []
  /-- the calls of cleanup functions, latest first -/
  rel : List Desc := []
  fault : Bool := false

def set {α : Type} (f : Nat → α) (n : Nat) (v : α) : Nat → α := fun k => if k = n then v else f k

/-- `_llco_asm_switch(&from->ctx, &to->ctx)` for a context that exists: the registers saved when it was left are loaded, from its stack -/
def jump (s : S) (src dst : Nat) : S :=
  let t := { s with sus := set s.sus src true }
  if t.sus dst = true ∧ t.gone dst = false then { t with on := dst, sus := set t.sus dst false, pc := .back } else { t with fault := true }

/-- and for a new one, on its stack: `llco_asmctx_make`, `llco_entry` -/
def enter (s : S) (src : Nat) (d : Desc) : S :=
  { s with sus := set s.sus src true, on := s.made + 1, made := s.made + 1, place := set s.place (s.made + 1) d.stack, born := set s.born (s.made + 1) d, pc := .fresh }

/-- `llco_switch0`, neco.c 1251-1273, up to the switch -/
def switch0 (s : S) (d : Option Desc) (co : Option Nat) (final : Bool) : S :=
  let src := s.cur.getD 0
  if d = none ∧ co.getD 0 = src then s
  else
    let s := if final = true then { s with needed := true, cdesc := s.self src, ended := src :: s.ended } else s
    match d with
    | some d => enter { s with desc := d } src d
    | none => jump { s with cur := some (co.getD 0) } src (co.getD 0)

/-- `llco_start`, neco.c 1283-1290 -/
def start (s : S) (d : Desc) (final : Bool) : S :=
  if s.active = true then { s with pc := .dead } else switch0 s (some d) none final

/-- `llco_switch`, neco.c 1294-1308 -/
def switch (s : S) (co : Option Nat) (final : Bool) : S :=
  if s.active = false ∧ s.cur.isSome ∧ co.isSome ∧ s.cur ≠ co ∧ final = false then jump { s with cur := co } (s.cur.getD 0) (co.getD 0)
  else if s.active = true then { s with pc := .dead }
  else switch0 s none co final

/-- `llco_cleanup_last`, neco.c 1162-1175, up to the call of the cleanup function. The stack it gets may be used for something else from now on:
nobody may run on it. -/
def cleanupLast (s : S) (new : Bool) : S :=
  if s.needed = true then
    if s.cdesc.cleanup = true then
      { s with active := true, pc := .callback new, rel := s.cdesc :: s.rel,
               gone := fun k => s.gone k || (k ≠ 0 && k ≤ s.made && s.place k == s.cdesc.stack),
               fault := s.fault || (s.on ≠ 0 && s.place s.on == s.cdesc.stack) }
    else { s with needed := false, pc := if new then .enter else .user }
  else { s with pc := if new then .enter else .user }

inductive Act
  /-- the program (or a cleanup function) calls `llco_start` -/
  | start (d : Desc) (final : Bool)
  /-- it calls `llco_switch`; `none`: NULL, the thread -/
  | switch (co : Option Nat) (final : Bool)
  /-- the function of the context returns, `llco_exit`, neco.c 1199-1202, 284 -/
  | ret
  /-- llco goes on -/
  | tau
  /-- the cleanup function returns -/
  | done
deriving DecidableEq, Repr

/-- one step; `none` when it is not possible -/
def step (s : S) (a : Act) : Option S :=
  if s.fault = true then none else
  match s.pc, a with
  | .user, .start d f => some (start s d f)
  | .callback _, .start d f => some (start s d f)
  | .user, .switch c f => some (switch s c f)
  | .callback _, .switch c f => some (switch s c f)
  | .user, .ret => if s.on = 0 then none else some { s with pc := .dead }
  | .back, .tau => some (cleanupLast s false)
  | .fresh, .tau => some (cleanupLast s true)
  | .enter, .tau => some { s with self := set s.self s.on s.desc, cur := some s.on, pc := .user }
  | .callback new, .done => some { s with active := false, needed := false, pc := if new then .enter else .user }
  | _, _ => none

inductive Reach (ok : S → Act → Prop) : S → Prop
  | init : Reach ok {}
  | step {s s'} (h : Reach ok s) (a : Act) (hok : ok s a) (hs : step s a = some s') : Reach ok s'

/-! ## Together with the scheduler -/

/-- llco goes on until the program runs; the cleanup function is that of neco.c 3802-3819, which calls nothing of llco -/
def settle (l : S) : S :=
  match step l .tau with
  | none => l
  | some l =>
    let l := (step l .done).getD l
    (step l .tau).getD l

/-- the scheduler and the contexts; `ptr id`: the `llco` in the `struct sco` of coroutine `id` (neco.c 2009), which is on its stack -/
structure SL where
  sco : Sco := {}
  l : S := {}
  ptr : Nat → Nat := fun _ => 0

/-- does the operation get to `llco_switch`, and with which `final`? neco.c 1976-2003, 2026, 2033, 2061, 2070, 2079, 2089 -/
def calls (s : Sco) : Sco.Op → Option Bool
  | .yield | .pause | .mainNext => some false
  | .resume id => if id ∈ s.paused then some false else none
  | .finish | .exit => some true
  | .start | .mainStart | .mainResume _ => none

/-- an operation of the scheduler: it updates its lists, reads `sco_cur->llco` (neco.c 2002) and switches; or it starts a coroutine on the given stack (2038-2049) -/
def stepSL (p : SL) (o : Sco.Op) (d : Desc) : SL :=
  let t := p.sco.step o
  match o with
  | .start | .mainStart =>
    let l := settle (start p.l d false)
    ⟨t, l, set p.ptr (p.sco.nextId + 1) (l.cur.getD 0)⟩
  | _ => match calls p.sco o with
    | none => { p with sco := t }
    | some final =>
      let l := match t.cur with
        | none => switch p.l none final
        | some x => if p.l.gone (p.ptr x) = true then { p.l with fault := true } else switch p.l (some (p.ptr x)) final
      { p with sco := t, l := settle l }

end Neco.Llco
