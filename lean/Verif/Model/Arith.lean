/-!
# Integer arithmetic of the scheduler

C integers are modelled as mathematical integers together with an explicit overflow check:
an operation whose result does not fit is undefined behaviour and yields `none`.
-/
namespace Neco.Arith

/-- `INT64_MAX` (stdint.h), used as "no deadline" throughout neco.c. -/
def i64Max : Int := 9223372036854775807
/-- `INT64_MIN` (stdint.h). -/
def i64Min : Int := -9223372036854775808

/-- representable as `int64_t` -/
def InI64 (x : Int) : Prop := i64Min ≤ x ∧ x ≤ i64Max

instance (x : Int) : Decidable (InI64 x) := inferInstanceAs (Decidable (_ ∧ _))

/-- a signed 64-bit C operation with mathematical result `x`: undefined (`none`) on overflow -/
def i64 (x : Int) : Option Int := if InI64 x then some x else none

/-- the C test `(a ^ b) < 0` on `int64_t`, computed on the two's complement representations -/
def xorNeg (a b : Int) : Bool := decide ((BitVec.ofInt 64 a ^^^ BitVec.ofInt 64 b).toInt < 0)

/-- `i64_add_clamp`, neco.c 4143-4154.  Every subtraction and addition is overflow checked. -/
def i64AddClamp (a b : Int) : Option Int := do
  if !(xorNeg a b) then
    if a > 0 then
      let t ← i64 (i64Max - a)
      if b > t then return i64Max
    else
      let t ← i64 (i64Min - a)
      if b < t then return i64Min
  i64 (a + b)

/-- `MAX_TIMEOUT`, neco.c 4156 (nanoseconds). -/
def maxTimeout : Int := 500000000

/-- `CLAMP(x, min, max)`, neco.c 2898. -/
def clamp (x lo hi : Int) : Int := if x ≤ lo then lo else if x ≥ hi then hi else x

/-- The time-out computation in `rt_sched_paused_step`, neco.c 4169-4189 (and the reset to 0 when
background jobs are outstanding, 4191-4193).
`scheduled` = `sco_info_scheduled()`, `sig` = pending signal mask nonzero, `minDl` = smallest deadline
if any, `now` = `getnow()` (the negation is overflow checked), `iow` = background jobs outstanding. -/
def pauseTimeout (scheduled : Nat) (sig : Bool) (minDl : Option Int) (now : Int) (iow : Bool) :
    Option Int := do
  let t : Int := maxTimeout
  let t := if t > 0 ∧ scheduled > 0 then 0 else t
  let t := if t > 0 ∧ sig then 0 else t
  let t ← (if t > 0 then
      match minDl with
      | some d => do
        let n ← i64 (-now)
        let t0 ← i64AddClamp d n
        pure (if t0 < t then t0 else t)
      | none => pure t
    else pure t)
  let t := clamp t 0 maxTimeout
  pure (if iow then 0 else t)

/-- deadline computed by `neco_sleep(duration)`: `i64_add_clamp(getnow(), nanosecs)`,
neco.c 4545-4547. -/
def sleepDeadline (now dur : Int) : Option Int := i64AddClamp now dur

end Neco.Arith
