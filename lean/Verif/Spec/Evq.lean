import Verif.Model.Evq
/-! # What a coroutine that waits for a descriptor may expect (C80) -/
namespace Neco.Evq

/-- the coroutine of `w` waits and nothing has made it ready -/
def Sleeps (s : S) (w : Waiter) : Prop := w ∈ s.wait ∧ w.wake = .asleep

/-- coroutine `i` waits and nothing has made it ready -/
def Asleep (s : S) (i : Nat) : Prop := ∃ w, Sleeps s w ∧ w.co = i

/-- the state a coroutine waits for: something to read, or room to write -/
def Ready.dir (r : Ready) (wr : Bool) : Bool := if wr = true then r.out else r.inn

/-- the file is in the state that the coroutine waits for -/
def CanGo (s : S) (w : Waiter) : Prop := (s.rdy w.file).dir w.wr = true

/-- the queue the main loop looks at has been asked to report the file of `w` in the direction of `w` -/
def Asked (s : S) (w : Waiter) : Prop :=
  ∃ l, s.q s.qfd = some l ∧ ∃ e ∈ l, e.fd = w.fd ∧ e.file = w.file ∧ (if w.wr = true then e.wr else e.rd) = true

/-- every execution -/
def any : S → Act → Prop := fun _ _ => True

/-- Nobody closes the last descriptor of a file that a coroutine waits for; the system never gives out descriptor 0 for a queue; and whenever the system reports
a descriptor, the report is of the direction that the coroutines asleep on it wait for (`OneWay` is enough for that). -/
def Fit (s : S) : Act → Prop
  | .close fd last => last = true → ∀ w, Sleeps s w → s.file fd ≠ some w.file
  | .wait _ _ _ mk _ => mk ≠ some 0
  | .poll es => ∀ e ∈ es, ∀ w, Sleeps s w → e.fd = w.fd → e.file = w.file → (e.report s).dir w.wr = true
  | _ => True

/-- The same, but instead of a condition on what the system reports for whom: nobody calls for a direction of a descriptor while somebody is inside of a call for the other direction, and the system reports no error without
readiness. -/
def OneWay (s : S) : Act → Prop
  | .close fd last => last = true → ∀ w, Sleeps s w → s.file fd ≠ some w.file
  | .wait _ fd wr mk _ => mk ≠ some 0 ∧ ∀ w ∈ s.wait, w.fd = fd → w.wr = wr
  | .poll es => ∀ e ∈ es, (e.report s).inn = true ∨ (e.report s).out = true
  | _ => True

/-- the program does not duplicate descriptors -/
def NoDup (_ : S) : Act → Prop
  | .dup _ _ => False
  | _ => True

/-- … and does not close a descriptor that a coroutine waits for -/
def Tidy (s : S) : Act → Prop
  | .dup _ _ => False
  | .close fd _ => ∀ w ∈ s.wait, w.fd ≠ fd
  | _ => True

/-- descriptor 0 is never given out for a queue -/
def NotZero (_ : S) : Act → Prop
  | .wait _ _ _ mk _ => mk ≠ some 0
  | _ => True

/-- nobody asks for `fd` again, coroutine `i` is not canceled and its deadline does not pass, nothing is duplicated -/
def Apart (i fd : Nat) (_ : S) : Act → Prop
  | .wait _ k _ _ _ => k ≠ fd
  | .other j => j ≠ i
  | .dup _ _ => False
  | _ => True

/-- what may happen from a state on -/
inductive Leads (ok : S → Act → Prop) : S → S → Prop
  | refl {s} : Leads ok s s
  | step {s t u a} : Leads ok s t → ok t a → Step t a u → Leads ok s u

end Neco.Evq
