import Verif.Model.Rt
import Verif.Model.Arith
/-!
# How long the main loop asks the system to wait

`rt_sched_paused_step` (neco.c 4159-4237) picks a time-out after it has taken up the coroutines that are to be woken and
before it asks the system for events. In the model this is the state with `main = .io`.
Simplification: the clock is read once there (`getnow()`, 4184), it may move on before the system is asked.
-/
namespace Neco.Rt

/-- `rt->sigmask != 0`, neco.c 4176: a signal is queued. (The mask is the set of the nonempty queues, 3931-3932, 4047-4049,
4062-4064; a handler that runs between the two is the subject of C76.) -/
def sigPending (s : S) : Bool := (List.range 32).any (fun n => decide (s.sigqueue n ≠ 0))

/-- `dlqueue_first(&rt->deadlines)->deadline`, neco.c 4181-4184 -/
def firstDl (s : S) : Option Int := s.dlq.head?.map (fun i => (s.co i).deadline)

/-- the time-out, neco.c 4169-4193; `none` is a signed overflow -/
def timeout (s : S) : Option Int :=
  Arith.pauseTimeout s.sco.nyielders (sigPending s) (firstDl s) s.clock (decide (s.niowaiters > 0))

/-- what the system is asked for, in nanoseconds: `epoll_wait` with whole milliseconds when somebody waits for a descriptor
(neco.c 4082-4083, 4207-4209), otherwise `nanosleep` with the whole time-out, or nothing at all when it is 0 (4210-4220) -/
def kernelWait (s : S) : Option Int :=
  (timeout s).map (fun t => if s.nevwaiters > 0 then t / 1000000 * 1000000 else t)

end Neco.Rt
