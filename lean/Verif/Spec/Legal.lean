import Verif.Spec.Cancel
/-!
# Programs that keep the rules of the manual

What a C program must not do: use a channel after giving up its last reference to it, release a channel
others are still using, overflow the counter of a wait group, pop a cleanup handler that was not pushed,
return from a function with a cleanup handler still pushed.  Nothing else is forbidden: coroutines may
do anything in any order, with any arguments, whatever time passes and whatever the system reports.
-/
namespace Neco.Rt
open Neco.Err

/-- the references to channel `c` the program holds after the history `l`: the one that comes with
`neco_chan_make` or `neco_gen_start`, one more for each retain, one less for each release.  (The reference
the coroutine of a generator holds to its own channel is the library's business.) -/
def refs (c : Nat) : List Ev → Int
  | [] => 0
  | .call _ (.chMake _) :: l => if (makers l).length = c then refs c l + 1 else refs c l
  | .call _ .genStart :: l => if (makers l).length = c then refs c l + 1 else refs c l
  | .call _ (.chRetain k) :: l => if k = c then refs c l + 1 else refs c l
  | .call _ (.chRelease k) :: l => if k = c then refs c l - 1 else refs c l
  | _ :: l => refs c l

/-- the channels whose handles are given to a call that sends, receives, closes or selects -/
def uses : Call → List Nat
  | .send c _ _ | .bcast c _ | .recv c _ | .tryrecv c | .close c | .chCase c => [c]
  | .select cs _ | .tryselect cs => cs
  | _ => []

/-- the channels whose handles are given to a call -/
def names : Call → List Nat
  | .chRetain c | .chRelease c => [c]
  | c => uses c

/-- some coroutine is in a call that uses channel `k` (a coroutine terminated by a cancelation is not in its call any more) -/
def Busy (k : Nat) (l : List Ev) : Prop := ∃ j c, pending j l = some c ∧ k ∈ uses c ∧ dying j l = false

/-- the program keeps the rules with this step -/
def Legal (s : S) (a : Act) : Prop := ∀ i, s.sco.cur = some i →
  (∀ c, a = .call c →
    -- it has a reference to each channel it names
    (∀ k ∈ names c, 0 < refs k s.log) ∧
    -- the last reference is given up when nobody uses the channel
    (∀ k, c = .chRelease k → refs k s.log = 1 → ¬ Busy k s.log) ∧
    -- the counter of a wait group stays in the range of an `int`
    (∀ w d, c = .wgAdd w d → -2147483648 ≤ wgCount w s.log + d ∧ wgCount w s.log + d ≤ 2147483647) ∧
    -- only a handler that was pushed is popped
    (∀ x, c = .cpop x → handlers i s.log ≠ [])) ∧
  -- a function does not return with a handler still pushed
  (a = .finish → handlers i s.log = [])

end Neco.Rt
