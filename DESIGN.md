# Formal model of tidwall/neco — design

Everything below is about `/repo/neco.c` (the amalgamation that contains aat.h, sco.c, stack.c, worker.c and the
neco runtime) in its Linux configuration: epoll, gaps on, pool on, write workers on, 64 I/O workers at most,
burst -1.

## Method

The code is modelled function by function in Lean 4 as total, computable functions on explicit states.  Each
definition cites file and lines.  Concurrency (schedules, cancels, timeouts, signals, thread interleavings) is
modelled by an *open-world transition system*: at each step the environment chooses what happens next (which API
call the running coroutine makes, how far the clock advances, which background job ends, which descriptor becomes
ready, which signal arrives), so a theorem about all reachable states covers all user programs.

Undefined behaviour is a distinct outcome (`fault`), never silently ignored.

When a property is *false of the code* we prove the negation on a concrete reachable history (names ending in
`_not_general`) and keep, under a name ending in `_partial`, the strongest version that does hold.

Properties are stated over the history of API calls and results (`Verif/Spec/Rt.lean` and the other `Spec` files),
not over the model's internal state, wherever that is possible.

## Layout (lean/Verif)

`Model/` the code; `Spec/` the vocabulary of the properties; `Proof/` lemmas; `Props/` the theorems listed in
MANIFEST.json, each with `example`s that show that its hypotheses are met by a non-trivial case.

| model | code modelled | lines of neco.c |
|---|---|---|
| Arith | i64_add_clamp, sleep-time computation, clamps | 4143-4186 |
| Err | errconv_*, errhpnd, shortstrerror, lasterr, the guard macros | 3417-3474, 5528-5660 |
| Addr | parse_tcp_addr | 6722-6753 |
| Rand | rincr, rgen, rnext, pcgrandom_buf, rand_dl, setseed | 8313-8453 |
| Aat | AAT_IMPL (all functions) | 1463-1801 |
| Maps | comap, evmap, sco_map, the deadline queue | 1854-1897, 3480-3548, 4159-4237 |
| Colist | the intrusive list with its pointers | 3266-3315 |
| Ring | the message buffer of a channel, byte by byte | 5749-5776, 6442-6454 |
| Ref | references to channels, the pool of channels | 5778-5926, 4296-4303 |
| Sco | the low-level coroutine scheduler with its counters | 1815-2158 |
| Stack | the stack manager | 2206-2620 |
| Worker | the worker threads, all interleavings | 2623-2834 |
| Mem | the allocator settings and the functions all memory goes through | 3108-3169, 3179-3181 |
| Out | writing to a standard stream whose reader is gone | 5177-5185, 5252-5312 |
| Text | the texts of error codes | 5613-5661 |
| Io | read/write loops, buffered streams | 5092-5312, 7908-8309 |
| Burst | the read loop with `NECO_BURST` ≥ 0, any number of other readers | 5092-5134 |
| Gai | background name lookup, coroutine and helper thread | 6470-6714 |
| Args | control blocks, their arguments, stacks and generators on a heap, with failing allocations | 3740-3900, 4245-4295, 7744-7753 |
| Net | dial, serve, accept, connect with their descriptors, memory and cleanup handlers; any results of system calls | 5391-5526, 6770-7076 |
| Pipe | neco_pipe: caller, helper coroutine, kernel socket and other processes, all interleavings | 7765-7834 |
| Run | the life of a runtime in a process with threads, memory, descriptors and signals: set-up, tear-down, handlers | 4339-4400, 3902-4037, 2676-2747, 4240-4303, 3567-3642 |
| Obj | several threads calling the API on shared objects: the checks at the head of every public function, lazy initialisation, identifiers of runtimes, neco_lasterr | the heads of all functions of neco.h, 3411-3475, 4402-8761 |
| Llco | switching between stacks and giving them back; together with Sco | 1119-1316, 1976-2093, 3802-3819 |
| Evq | waiting for descriptors, together with a model of epoll, open files and descriptor numbers | 3683-3687, 4078-4139, 4242-4250, 4855-4871, 4897-4958 |
| Exit | the end of one coroutine as a stack of activations, with cleanup handlers that suspend, push, pop, exit and are canceled | 3466-3474, 3654-3660, 3671-3679, 3818-3834, 7678-7763, 8461-8465 |
| Main | how a program written with neco_main ends: status, coroutines of all threads by begin and end, buffered output | neco.h 427-440; neco.c 3787-3816, 5177-5185 |
| Look | what a name lookup reports: return value, errno, neco_lasterr, neco_gai_lasterr, with the coroutines of a thread taking turns | 3420-3476, 3554-3562, 3654-3660, 6593-6701, 6755-6814, 6945-6949 |
| Conc | the waiting queues while background threads report work done, link by link | 3280-3311, 4193-4203, 8706-8737 |
| Sigq | the signal handler and the signal queue, read by read and write by write | 3920-3933, 4040-4074, 4223 |
| RtTime | how long the main loop asks the system to wait, from the state of Rt | 4169-4220, 4082-4083 |
| Rt | the integrated runtime: start/exit, yield, sleep, suspend, join, cancel, channels, select, generators, mutex, waitgroup, cond, signals, work, descriptor waits, deadlines, recycling, statistics | the rest of 3266-8761 |

Rt uses lists for queues, sets for maps and lists for message buffers; Colist, Maps/Aat and Ring prove that the
pointer-level code implements those.

## Conditions on executions used in Rt

* `Reach ok`, `Reach any`: every execution.
* `Fresh i s`: the last call of `i` was made when no wake-up meant for an earlier call of `i` was still on its way and
  `i` carried no cancelation left in its reused control block (`NoStale`).  It asks nothing of the other coroutines, of
  earlier calls of `i` or of the rest of the execution.  The code does not ensure it (findings 6, 8, 11, 20), so theorems
  under `Fresh` end in `_partial`.
* `Clean`: every call of the execution is made like that, and no control block is reused with a pending cancel; then
  every coroutine that has made a call is `Fresh` (`clean_fresh`).
* `Unflagged`: only the part of `Clean` about reused control blocks.
* `Good i`: a condition on the history alone: nobody canceled `i`, and `i` gave no deadline to `neco_chan_select` or
  `neco_cancel`; and the same holds of every coroutine that had ended when `i` was started (`i` may run in its control
  block).  Nothing is asked of the coroutines beside `i`.  `C58_fresh` proves that every call of such a coroutine is
  `Fresh`; C58-C60 are stated for them.
* `Tame`: a condition on the program: it does not call `neco_cancel` and gives no deadline to a select.  Then every
  coroutine is `Good` (`C58_tame`).
* `Disciplined`: a mutex is unlocked only by a coroutine that holds it.

## Per property

* C01-C10, C30-C35, C53, C55, C56, C58-C60: invariants of Rt by induction on executions; C02-C04, C07 additionally
  on Sco with explicit counters; C10 on the deadline queue of Maps and, for every execution, on that of Rt (sorted by an invariant).
* C11-C18, C20: channels: ghost put/take/withdraw history and replay invariant on Rt; C11 also on Ring; C18 on Rt
  with the history of the select that precedes `neco_chan_case`.  C19: Ref.
* C21-C29: mutex, waitgroup, condition variables: Rt with the history of grants and releases.
* C36: Worker.  C37-C42, C57: Io, loops over a list of results of system calls; stream state refined to byte lists.  The theorems
  named `_ends` (C37-C40, C62-C64) add that an undisturbed call does come back, so that what is said about results is not said about calls that hang.
* C43-C46: pure functions on bit vectors, integers and byte lists; the generator is also compared with a specification of PCG on natural numbers (Spec/Rand).
* C47-C49: functional model of the tree, refinement to sorted lists, AA balance invariant.
* C50-C51: address arithmetic plus invariant on free list and groups.  C52: Colist.  C54: Gai.
  C61: Args, ownership invariant on the heap.
  C62-C64: Net, functions of the results of all system calls; case analysis and induction over the rounds of the loops.
  C65: Pipe, invariant over descriptors, connections and positions of both coroutines.
  C66: Rt, invariant that a cancelation that is owed is marked in the control block, and one over the rest of a call made with the mark.
  C67, C68: Run, ownership invariant per thread over all interleavings; the disposition the program chose is a function of the state that only the program changes.
  C69-C71: Obj, each function is a list of checks made one at a time; invariant over all interleavings (what was checked, who may initialise what).
  C72: Rt, a measure (the number of turns ahead of a coroutine, in each phase of the main loop) that every step respects.
  C73: Rt, invariant that the reference count of each channel is the number of references the history gives the program (plus the generator's), and that everything queued on a channel is in a call that uses it; then no branch marked undefined can be taken.
  C74: Rt, a weight for every place a coroutine can be at, plus its cleanup handlers, such that each step of the library lowers the sum; a cancelation pays for the coroutine it wakes.
  C75: RtTime on top of Rt and Arith: the time-out is computed from the state at the point where the main loop picks it; bounds by the deadline-queue, ready-queue, signal-queue and counter invariants of Rt; the busy loop by a state that a pass maps to itself.
  C76: Sigq, every read and write of the shared variables is a step, handlers may start between any two and nest; invariants on counts, on the mask and on the values held in registers.
  C77: Conc, the queue operations of Colist as instructions, two threads and a lock interleaved; each operation in progress carries the proof that finishing it alone would do the right thing, and steps of the other thread do not touch its places.
  C78: Llco, an invariant of the switching code over all programs that keep its rules; then Sco on top of it by a relation between the two that every operation keeps.
  C79: the runtime model; the invariant of the queues (a node is in one queue, that of the call its owner is in) and a frame lemma per function.
  C80: Evq, the calls that wait for descriptors against a model of epoll with open files, duplicated and reused numbers; an invariant that everybody asleep is registered.
  C81: Exit, the chain of handler records against the C stack of activations; invariants over the history, by induction on executions.
  C82: Main, coroutines by begin and end, the two variables of each thread, printed against written output; an invariant over the history.
  C83: Look, the three variables of the thread and the place of each coroutine; every event that a call returned is checked against what its lookup came to; invariants over executions.
  C84: Mem, the settings and the calls made to the allocators as a history; the specification reads the owner of a block from the history; induction over the calls.
  C85: Out, the loop of neco_write over the wrapper that ends the process; compared with Io; induction over the rounds.
  C86: Rt; the specification reads the call a coroutine is in from the history; from the invariants of the queues.

## Findings: properties that are false of the code

Each is refuted by a theorem on a concrete history that the model (and by inspection the code) produces.

| # | finding | theorem |
|---|---|---|
| 1 | a mutex handed to a waiter that is then canceled or times out stays locked though the call failed | C24_not_general |
| 2 | a message copied to a receiver that is canceled or times out before it runs is lost, a broadcast counts it | C13_not_general, C16_counted_not_general |
| 3 | neco_cond_wait unlocks and yields before it gets in line: a signal in between is missed | C29_not_general |
| 4 | a closed channel whose last blocked sender gives up never reports NECO_CLOSED to receivers | C15_drained_not_general, C15_blocked_not_general, C20_end_not_general |
| 5 | two coroutines selecting on one channel share one slot for the message | C18_case_not_general |
| 6 | a recycled control block keeps pending cancel, last started child, watched signals, cleanup handlers | C30_not_general, C55_lastid_not_general, C55_watch_not_general, C34_watches_not_general, C32_not_general |
| 7 | a coroutine that is ending can be terminated again by the same cancel; statistics drift | C30_twice_not_general, C33_live_not_general |
| 8 | neco_cancel wakes a coroutine inside neco_work (and a write in a worker) before the work is done | C35_not_general, C37_prefix_not_general, C12_send_ok_not_general, C06_join_ok_not_general |
| 9 | neco_setcancelstate(ENABLE) does not wake waiting cancelers | C31_wait_not_general |
| 10 | neco_waitgroup_add with a negative delta to zero wakes nobody | C26_not_general |
| 11 | a select that is canceled or times out leaves a wake-up behind that ends the next call early | C05_suspend_ok_not_general, C08_sleep_ok_not_general, C58_suspend_not_general and the `_not_general` of C12-C28 |
| 12 | neco_write returns -1 after a part was written; a stream sends that part again | C37_error_not_general, C37_deadline_not_general, C40_order_not_general |
| 13 | neco_stream_read_byte, readfull and stream_write swallow a pending cancelation | C57_*_not_general |
| 14 | a pending signal nobody waits for blocks higher ones | C34_due_not_general |
| 15 | epoll one-shot: a report of one direction disarms the other; EPOLLHUP/ERR alone wakes nobody | C53_kept_not_general, C53_hangup_not_general |
| 16 | int overflow in the channel buffer for huge capacities | C11_buffer_not_general |
| 17 | pthread_create is tested against -1: an error is not noticed, accepted jobs never run | C36_lost_not_general, C36_refused_not_general |
| 18 | NECO_EOF has no short name | C45_names_false |
| 19 | size overflow for huge stacks times capacity, and for huge stream buffers | C50_overflow_not_general, C41_make_not_general |
| 20 | an expiry noticed by neco_cancel_dl leaks into the next call | C09_timedout_not_general |
| 21 | neco_cond_wait can end up waiting for a mutex its caller holds | C28_self_not_general |
| 22 | neco_start starves coroutines that yielded | C03_false_starvation |
| 23 | a signal handed to a waiter that times out in the same pass is lost | C34_told_not_general |
| 24 | getaddrinfo: a pipe end that is descriptor 0 is not closed; the addresses are lost if the caller is terminated in the yield before the return | C54_freed_not_general, C54_exit_not_general |
| 25 | the reference count of a channel is an int | C19_safe_not_general |
| 26 | neco_gen_start that fails for lack of memory for the arguments leaves in *gen the address of a freed channel | C61_gen_untouched_not_general |
| 27 | neco_dial with several addresses and the inline cancel type forgets a cancelation: the interrupted attempt counts as a failed address | C62_cancel_not_general |
| 28 | neco_serve cuts a unix path to 107 bytes without an error (neco_dial refuses it) | C63_unix_not_general |
| 29 | neco_connect after EINTR: reports EALREADY or EISCONN as an error while the socket gets connected | C64_error_not_general |
| 30 | neco_pipe that fails while its helper still writes: the helper later stores into the dead frame of the caller, its descriptor leaks | C65_safe_not_general |
| 31 | neco_pipe: if the helper is canceled after it sent the secret the call returns 0 and pipefd[0] is -2 | C65_ok_cancel_not_general |
| 32 | neco_pipe: a listening socket with descriptor 0 is never closed; the call fails with errno 0 | C65_clean_not_general |
| 33 | neco_pipe: errno is 0 after a handshake that ended with end of file | C65_errno_not_general |
| 34 | a cancelation that arrives while neco_cond_wait waits for its mutex again is dropped (inline type) | C66_awake_not_general, C66_next_not_general |
| 35 | SIGPIPE crashes the process: neco_write to a connection closed by the peer writes in a worker thread, the signal is raised there, and the handler dereferences the thread-local `rt`, which is null in that thread | C68_worker_not_general |
| 36 | any handled signal that the kernel delivers to a thread without a runtime does the same | C68_thread_not_general |
| 37 | tear-down frees the alternate signal stack before it restores the handlers, and leaves it registered afterwards | C68_teardown_not_general, C68_after_not_general |
| 38 | the alternate signal stack the program had is not restored | C68_altstack_not_general |
| 39 | an event queue with descriptor 0 is taken for none: it leaks, a second one is made, what was registered in the first is not reported | C67_queue_not_general, C67_one_queue_not_general |
| 40 | a job whose coroutine was woken by neco_cancel and ended writes to freed memory | C67_safe_not_general |
| 41 | two threads that make their first calls on one zeroed mutex (waitgroup, condition variable) at the same time both initialise and use it | C69_race_not_general |
| 42 | neco_mutex_init and the two like it do not look at the owner: they empty and take over an object another runtime is using | C69_init_not_general |
| 43 | neco_cond_wait that is refused because of its mutex has already bound a zeroed condition variable to the runtime | C70_no_effect_not_general |
| 44 | neco_mutex_lock, rdlock, trylock, tryrdlock and neco_gen_yield return errors without telling neco_lasterr (and without the panic on error) | C71_refused_not_general |
| 45 | neco_stream_read_byte succeeds and leaves the error of an earlier call in neco_lasterr | C71_returned_not_general |
| 46 | when a background task whose coroutine was canceled in neco_work completes, it takes the coroutine off whatever list it is on by then; woken from another call, the coroutine is not run until somebody calls neco_work again | C72_woken_not_general |
| 47 | with a pending signal that some coroutine watches and nobody waits for, the main loop never sleeps: it polls in a busy loop until somebody waits for that signal | C75_spin_not_general |
| 48 | a signal that arrives while the main loop takes one of the same number off the queue can be lost (`sigqueue[signo]--` is not atomic; with a compiler that makes one instruction of it on one processor it does not happen, finding 49 does) | C76_lost_not_general |
| 49 | a signal that arrives between the test `sigqueue[signo] == 0` and the clearing of its bit stays queued unnoticed until another signal arrives | C76_stuck_not_general |
| 50 | the task of a coroutine that was canceled in neco_work puts it on the done list from its own thread, holding a lock that the other queues do not use: a data race with the coroutine putting itself on another queue; that queue can end up yielding the same coroutine forever, so a broadcast on it does not end | C77_race_not_general, C77_broken_not_general |
| 51 | a coroutine that waits for a descriptor is not woken when another coroutine closes it: no event will ever wake it (only a cancelation, its deadline, or somebody waiting on a reused number) | C80_closed |
| 52 | if standard input is closed and the event queue gets descriptor 0, the second wait makes a second queue and whoever waits in the first is never woken | C80_zero |
| 53 | after dup and close, or close while waited for, an event of one file wakes a coroutine that waits for another one under the same number (harmless for neco_read and neco_write, which try again; neco_wait returns NECO_OK) | C80_dup, C80_reused |
| 54 | a cleanup handler that runs because of an asynchronous cancel and that suspends (sleeps, writes, sends) does not continue: coyield leaves the flag set, so the same cancel ends the handler at its first yield | C81_finish_not_general |
| 55 | neco_main ends the process with _Exit and nothing flushes stdio: what the program printed and stdio still holds (standard output is a file or a pipe) is lost; and a main function that calls neco_exit makes the process end with -1 and the message "neco_start: Success" | C82_output_not_general, C82_exit_not_general |
| 56 | neco_stream_close (or flush with a deadline) in a coroutine terminated by a cancelation while it writes the rest: the descriptor stays open and the memory of the stream is lost | C41_close_not_general |
| 57 | neco_getaddrinfo sets errno and then yields: with EAI_SYSTEM the caller sees the errno of whichever coroutine ran in between; if that is ECANCELED the caller is terminated (cancel type async) or told that it was canceled, although nobody canceled it | C83_errno_not_general, C83_gone_not_general |
| 58 | neco_gai_lasterr is not set by neco_getaddrinfo, and is EAI_FAIL after the lookup of a neco_dial or neco_serve that worked | C83_gai_not_general, C83_gai_ok_not_general |
| 59 | neco_env_setallocator takes the three functions one by one: with only some of them given, or when called after the first allocation, blocks are given to an allocator they did not come from; stacks in malloc mode do not use the user's allocator at all | C84_paired_not_general |
| 60 | neco_strerror(NECO_EOF) says "Undefined error: -5"; the buffer for undefined codes is too short for long numbers, which are cut | C45_text_not_general |
| 61 | the library's tests are compiled with NECO_BURST ≥ 1 (neco.c 96-98) and so run another read loop than its users do (default -1); NECO_USEREADWORKERS has no effect, `read1` sets `nowork` to true before it asks (neco.c 5051) | by inspection; C38_read and C38_burst show that both loops keep the same contract |

## Trusted base

* Lean 4.33.0 kernel; axioms used are only `propext`, `Classical.choice`, `Quot.sound`, for each theorem in
  AXIOMS.md.  No `sorry`, no `native_decide`, no `bv_decide`, no axiom of our own.  Concrete histories are checked with
  `decide +kernel`, i.e. by the kernel.
* That the Lean definitions transcribe the C faithfully (by inspection; every definition cites its lines).
* Not modelled: the register exchange of llco and its assembly (one step in Llco), stack unwinding, pthreads and kernel primitives (assumed to do
  what their manuals say; where the manual leaves a choice the environment chooses), Windows/wasm/kqueue branches,
  io_uring, texts of messages and printing functions, cancel settings of `neco_env_*`
  changed after the start, detach/attach of sco.

What each model leaves out is said in its header comment; the ones that matter most:

* Rt: allocation does not fail (Ref, Args and Stack treat the failing cases of their parts); cleanup handlers do not call the API (Exit treats handlers that do); the late
  completion of background work whose caller was woken early (finding 8) would in C access a dead stack frame,
  here it is taken as intact.
* Io: two calls on the same side of one stream do not overlap; panic on error is off; read workers off (the
  default); the exit on a broken standard output is left out (Out has it).
* Gai and Worker: loads and stores are sequentially consistent; the handover is by mutex, pipe or atomic.
* Ref, Args and Gai: `malloc` always gives a new block, so a freed block is never seen again: use after free is then an access to
  a block that was freed, which is a fault.
* Sco and Rt: identifiers do not wrap around (2^63 starts).

## Tests against wrong programs

`seeded/LOG.jsonl` records edits of the model in a scratch copy, the theorems that failed, and the theorems that
were tightened when an edit survived.
