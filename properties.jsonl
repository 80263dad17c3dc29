{"id": "C01", "title": "Coroutine identifiers are unique and relate parent and child", "statement": "Every coroutine started gets an identifier different from (and larger than) every identifier handed out before; neco_getid returns it for the coroutine's whole life, neco_starterid in the child returns the starter's neco_getid, and right after neco_start neco_lastid in the starter returns the child's identifier.", "quantifier": "every history of API calls by any number of coroutines", "why_tests_cant": "Tests run one schedule each; the claim ranges over every interleaving of API calls, cancels, timeouts and wake-ups.", "anchors": ["neco.c: sco_entry", "neco.c: coentry", "neco.c: start", "neco.c: neco_getid", "neco.c: neco_lastid", "neco.c: neco_starterid"]}
{"id": "C02", "title": "No coroutine is lost or duplicated", "statement": "At every moment each coroutine that was started and has not terminated is in exactly one of the states running / ready / blocked, at most one coroutine is running, and a coroutine that terminated is never run again.", "quantifier": "every reachable state of the runtime", "why_tests_cant": "Tests run one schedule each; the claim ranges over every interleaving of API calls, cancels, timeouts and wake-ups.", "anchors": ["neco.c: sco_switch", "neco.c: sco_yield", "neco.c: sco_pause", "neco.c: sco_resume", "neco.c: sco_exit", "neco.c: sco_entry"]}
{"id": "C03", "title": "Ready coroutines are scheduled fairly", "statement": "A ready coroutine is run after at most as many context switches as there are coroutines ready before it, whatever those coroutines do (yield, block, start others, wake others or exit); neco_yield puts the caller behind every coroutine that is ready.", "quantifier": "every scheduler state and every sequence of scheduler operations by other coroutines", "why_tests_cant": "Starvation freedom is a statement about all infinite schedules.", "anchors": ["neco.c: sco_switch", "neco.c: sco_yield", "neco.c: sco_resume", "neco.c: sco_entry"]}
{"id": "C04", "title": "Starting a coroutine runs it immediately and reschedules the starter ahead of yielders", "statement": "neco_start transfers control to the new coroutine at once; the starter becomes ready and runs again after the coroutines already due in the current round but before any coroutine that has yielded.", "quantifier": "every scheduler state", "why_tests_cant": "Tests run one schedule each; the claim ranges over every interleaving of API calls, cancels, timeouts and wake-ups.", "anchors": ["neco.c: sco_entry", "neco.c: sco_start", "neco.c: start"]}
{"id": "C05", "title": "suspend / resume", "statement": "neco_suspend returns NECO_OK only after some neco_resume named the coroutine while it was suspended; neco_resume returns NECO_NOTFOUND for an identifier of no live coroutine, NECO_NOTSUSPENDED for one that is not suspended, and otherwise makes the target ready.", "quantifier": "every history", "why_tests_cant": "Tests run one schedule each; the claim ranges over every interleaving of API calls, cancels, timeouts and wake-ups.", "anchors": ["neco.c: suspend_dl", "neco.c: resume"]}
{"id": "C06", "title": "join waits for termination", "statement": "neco_join(id) returns NECO_OK only if the coroutine id has terminated (or never existed); joining itself fails with NECO_PERM; when a coroutine terminates, every coroutine blocked joining it is made ready.", "quantifier": "every history and schedule", "why_tests_cant": "Tests run one schedule each; the claim ranges over every interleaving of API calls, cancels, timeouts and wake-ups.", "anchors": ["neco.c: join_dl", "neco.c: coexit"]}
{"id": "C07", "title": "The runtime returns only when every coroutine has terminated", "statement": "The outermost neco_start returns only when no coroutine is running, ready or blocked; as long as one exists the scheduler keeps going.", "quantifier": "every history", "why_tests_cant": "Tests run one schedule each; the claim ranges over every interleaving of API calls, cancels, timeouts and wake-ups.", "anchors": ["neco.c: rt_scheduler", "neco.c: sco_active"]}
{"id": "C08", "title": "sleep never returns success early", "statement": "neco_sleep/neco_sleep_dl returns NECO_OK only once the clock has passed the requested deadline; it returns NECO_TIMEDOUT without blocking exactly when the deadline was already past at the call.", "quantifier": "every deadline, clock and history", "why_tests_cant": "Tests run one schedule each; the claim ranges over every interleaving of API calls, cancels, timeouts and wake-ups.", "anchors": ["neco.c: sleep_dl", "neco.c: sleep0", "neco.c: copause", "neco.c: rt_sched_paused_step"]}
{"id": "C09", "title": "NECO_TIMEDOUT means the deadline passed, and deadlines are not missed", "statement": "Any *_dl operation returns NECO_TIMEDOUT only when the clock is strictly past the deadline it was given; and each scheduler pass makes every blocked coroutine whose deadline has passed ready.", "quantifier": "every operation, deadline, clock reading and history", "why_tests_cant": "Tests run one schedule each; the claim ranges over every interleaving of API calls, cancels, timeouts and wake-ups.", "anchors": ["neco.c: checkdl", "neco.c: copause", "neco.c: rt_sched_paused_step", "neco.c: dl_compare"]}
{"id": "C10", "title": "Expired deadlines wake in deadline order", "statement": "When several blocked coroutines have expired deadlines, one scheduler pass makes them ready in order of (deadline, identifier).", "quantifier": "every set of blocked coroutines", "why_tests_cant": "Order over arbitrary sets of deadlines.", "anchors": ["neco.c: dl_compare", "neco.c: rt_sched_paused_step"]}
{"id": "C11", "title": "A channel never holds more messages than its capacity", "statement": "The number of messages accepted by a channel but not yet delivered and whose senders are not blocked never exceeds the capacity given to neco_chan_make, and a buffered message occupies its own slot inside the allocation.", "quantifier": "every history of sends and receives, every capacity and message size", "why_tests_cant": "Tests run one schedule each; the claim ranges over every interleaving of API calls, cancels, timeouts and wake-ups.", "anchors": ["neco.c: cbuf_push", "neco.c: cbuf_pop", "neco.c: chan_send0", "neco.c: chan_tryrecv0"]}
{"id": "C12", "title": "Channel delivery is FIFO, without invention or duplication", "statement": "The messages taken out of a channel are exactly the messages put into it, in the order the sends were issued (withdrawn sends excepted): none invented, duplicated or reordered.", "quantifier": "every history of sends, receives, cancels and timeouts on any number of channels", "why_tests_cant": "Tests run one schedule each; the claim ranges over every interleaving of API calls, cancels, timeouts and wake-ups.", "anchors": ["neco.c: chan_send0", "neco.c: chan_tryrecv0", "neco.c: cbuf_push", "neco.c: cbuf_pop"]}
{"id": "C13", "title": "A message whose send succeeded is received by a successful receive", "statement": "If neco_chan_send returned NECO_OK then the message is in the buffer or was handed to exactly one receiver, whose receive returns NECO_OK with that message.", "quantifier": "every history", "why_tests_cant": "Tests run one schedule each; the claim ranges over every interleaving of API calls, cancels, timeouts and wake-ups.", "anchors": ["neco.c: chan_send0", "neco.c: chan_tryrecv0", "neco.c: checkdl"]}
{"id": "C14", "title": "Channels do not block needlessly", "statement": "No coroutine is blocked sending while the buffer has room or a receiver is waiting, and none is blocked receiving while a message is buffered or a sender is blocked on the same channel.", "quantifier": "every reachable state", "why_tests_cant": "Tests run one schedule each; the claim ranges over every interleaving of API calls, cancels, timeouts and wake-ups.", "anchors": ["neco.c: chan_send0", "neco.c: chan_tryrecv0", "neco.c: chan_select"]}
{"id": "C15", "title": "Channel close", "statement": "After neco_chan_close succeeds every later send and close returns NECO_CLOSED; receivers still get every message accepted before, and once the channel is drained every receive returns NECO_CLOSED, including receivers that were blocked at the close.", "quantifier": "every history", "why_tests_cant": "Tests run one schedule each; the claim ranges over every interleaving of API calls, cancels, timeouts and wake-ups.", "anchors": ["neco.c: chan_close", "neco.c: chan_tryrecv0", "neco.c: chan_send0"]}
{"id": "C16", "title": "Broadcast", "statement": "neco_chan_broadcast delivers the message to every coroutine blocked receiving on the channel, makes all of them ready, leaves nothing in the buffer and returns their number.", "quantifier": "every channel state", "why_tests_cant": "Tests run one schedule each; the claim ranges over every interleaving of API calls, cancels, timeouts and wake-ups.", "anchors": ["neco.c: chan_send0", "neco.c: neco_chan_broadcast"]}
{"id": "C17", "title": "Select picks one ready channel", "statement": "neco_chan_select returns the lowest index whose channel has a message available or is closed and drained, consuming exactly one message from that channel and touching no other; if none is ready it blocks (or returns NECO_EMPTY for tryselect); a blocked select is completed by at most one send.", "quantifier": "every list of channels (repetitions allowed) and every channel state", "why_tests_cant": "Tests run one schedule each; the claim ranges over every interleaving of API calls, cancels, timeouts and wake-ups.", "anchors": ["neco.c: chan_select", "neco.c: chan_selectv_dl", "neco.c: chan_send0"]}
{"id": "C18", "title": "neco_chan_case returns the message its select received", "statement": "neco_chan_case called right after a successful neco_chan_select returns the message that select consumed.", "quantifier": "every history with any number of selecting coroutines", "why_tests_cant": "Tests run one schedule each; the claim ranges over every interleaving of API calls, cancels, timeouts and wake-ups.", "anchors": ["neco.c: chan_case", "neco.c: chan_select", "neco.c: coselectcase"]}
{"id": "C19", "title": "Channel and generator references", "statement": "A channel made and retained k times stays usable until it has been released k+1 times and its memory is then given back exactly once; recycled channels start empty, open and with no waiter.", "quantifier": "every sequence of make/retain/release calls", "why_tests_cant": "Tests sample a few inputs; the claim is about every input of unbounded size.", "anchors": ["neco.c: chan_fastretain", "neco.c: chan_fastrelease", "neco.c: zchanpush", "neco.c: chan_fastmake"]}
{"id": "C20", "title": "Generators", "statement": "neco_gen_next yields the values passed to neco_gen_yield in order and returns NECO_CLOSED once the generator coroutine has terminated; neco_gen_yield outside a generator coroutine returns NECO_NOTGENERATOR.", "quantifier": "every generator body and consumer schedule", "why_tests_cant": "Tests run one schedule each; the claim ranges over every interleaving of API calls, cancels, timeouts and wake-ups.", "anchors": ["neco.c: neco_gen_yield_dl", "neco.c: neco_gen_next_dl", "neco.c: coexit", "neco.c: start"]}
{"id": "C21", "title": "Mutual exclusion", "statement": "If coroutines only unlock mutexes they hold, a mutex is never held for writing by two coroutines, nor for writing by one and for reading by another.", "quantifier": "every history of lock, rdlock, trylock, unlock, cond_wait, cancels and timeouts", "why_tests_cant": "Tests run one schedule each; the claim ranges over every interleaving of API calls, cancels, timeouts and wake-ups.", "anchors": ["neco.c: mutex_trylock", "neco.c: mutex_tryrdlock", "neco.c: finish_lock", "neco.c: mutex_fastunlock"]}
{"id": "C22", "title": "Locks are granted in FIFO order and readers do not overtake", "statement": "When a held mutex is released it is given to the longest waiting coroutine, or to the maximal run of consecutive readers at the head of the queue; a reader that arrives while anyone is queued waits behind them.", "quantifier": "every queue content", "why_tests_cant": "Tests sample a few inputs; the claim is about every input of unbounded size.", "anchors": ["neco.c: mutex_fastunlock", "neco.c: mutex_tryrdlock"]}
{"id": "C23", "title": "No coroutine waits for a free mutex", "statement": "Whenever some coroutine is blocked in neco_mutex_lock or neco_mutex_rdlock on a mutex, that mutex is held; unlocking a mutex nobody holds changes nothing.", "quantifier": "every reachable state", "why_tests_cant": "Tests run one schedule each; the claim ranges over every interleaving of API calls, cancels, timeouts and wake-ups.", "anchors": ["neco.c: mutex_fastunlock", "neco.c: finish_lock"]}
{"id": "C24", "title": "A failed lock attempt does not take the lock", "statement": "If neco_mutex_lock_dl/rdlock_dl returns NECO_TIMEDOUT or NECO_CANCELED the caller does not own the mutex and the mutex is not left locked on its behalf.", "quantifier": "every history", "why_tests_cant": "Tests run one schedule each; the claim ranges over every interleaving of API calls, cancels, timeouts and wake-ups.", "anchors": ["neco.c: finish_lock", "neco.c: mutex_fastunlock", "neco.c: checkdl"]}
{"id": "C25", "title": "Waitgroup counting", "statement": "The counter equals the sum of accepted deltas minus the accepted dones, never becomes negative (NECO_NEGWAITGRP instead), and a wait that returns NECO_OK did so at a moment when the counter was zero or was made ready by the done that took it to zero.", "quantifier": "every history and delta", "why_tests_cant": "Tests run one schedule each; the claim ranges over every interleaving of API calls, cancels, timeouts and wake-ups.", "anchors": ["neco.c: waitgroup_add", "neco.c: waitgroup_done", "neco.c: waitgroup_wait_dl"]}
{"id": "C26", "title": "Waitgroup wakes all waiters", "statement": "When the counter drops to zero every coroutine blocked in neco_waitgroup_wait is made ready; nobody stays blocked on a waitgroup whose counter is zero.", "quantifier": "every history", "why_tests_cant": "Tests run one schedule each; the claim ranges over every interleaving of API calls, cancels, timeouts and wake-ups.", "anchors": ["neco.c: waitgroup_done", "neco.c: waitgroup_add"]}
{"id": "C27", "title": "Condition variable signal and broadcast", "statement": "neco_cond_signal makes ready exactly the longest waiting coroutine of that condition (none if nobody waits); neco_cond_broadcast makes ready all of them.", "quantifier": "every queue content", "why_tests_cant": "Tests sample a few inputs; the claim is about every input of unbounded size.", "anchors": ["neco.c: cond_signal", "neco.c: cond_broadcast"]}
{"id": "C28", "title": "cond_wait returns holding the mutex", "statement": "Whatever neco_cond_wait_dl returns after having waited (NECO_OK, NECO_TIMEDOUT, NECO_CANCELED), the caller owns the mutex when it returns.", "quantifier": "every history", "why_tests_cant": "Tests run one schedule each; the claim ranges over every interleaving of API calls, cancels, timeouts and wake-ups.", "anchors": ["neco.c: cond_wait_dl", "neco.c: mutex_fastlock"]}
{"id": "C29", "title": "cond_wait atomically releases the mutex and waits", "statement": "No signal sent by a coroutine that acquired the mutex after the waiter released it can be missed by the waiter.", "quantifier": "every history", "why_tests_cant": "Tests run one schedule each; the claim ranges over every interleaving of API calls, cancels, timeouts and wake-ups.", "anchors": ["neco.c: cond_wait_dl", "neco.c: mutex_fastunlock"]}
{"id": "C30", "title": "A cancel reaches only its target, once", "statement": "An operation returns NECO_CANCELED (or a coroutine is terminated by cancelation) only if some neco_cancel named that coroutine's identifier since, and each cancel is consumed at most once.", "quantifier": "every history", "why_tests_cant": "Tests run one schedule each; the claim ranges over every interleaving of API calls, cancels, timeouts and wake-ups.", "anchors": ["neco.c: cancel_dl", "neco.c: checkdl", "neco.c: start", "neco.c: coyield"]}
{"id": "C31", "title": "Cancelation state is respected", "statement": "While a coroutine's cancel state is NECO_CANCEL_DISABLE no neco_cancel call marks it canceled; neco_cancel for an identifier of no live coroutine returns NECO_NOTFOUND; a canceler that had to wait proceeds when the state is enabled again.", "quantifier": "every history", "why_tests_cant": "Tests run one schedule each; the claim ranges over every interleaving of API calls, cancels, timeouts and wake-ups.", "anchors": ["neco.c: cancel_dl", "neco.c: setcancelstate"]}
{"id": "C32", "title": "Cleanup handlers", "statement": "When a coroutine terminates through neco_exit or asynchronous cancelation the handlers pushed and not popped run exactly once each in reverse order of pushing; a popped handler never runs again.", "quantifier": "every sequence of pushes and pops", "why_tests_cant": "Tests sample a few inputs; the claim is about every input of unbounded size.", "anchors": ["neco.c: cleanup_push", "neco.c: cleanup_pop", "neco.c: coexit"]}
{"id": "C33", "title": "Statistics are exact", "statement": "neco_getstats reports the number of live coroutines and, per kind, the number of coroutines currently blocked in sleep, send, receive, lock, waitgroup, condition, suspend, signal and descriptor waits.", "quantifier": "every reachable state", "why_tests_cant": "Tests run one schedule each; the claim ranges over every interleaving of API calls, cancels, timeouts and wake-ups.", "anchors": ["neco.c: getstats", "neco.c: comap_insert", "neco.c: comap_delete"]}
{"id": "C34", "title": "Watched signals are delivered to one waiter each", "statement": "Each arrival of a watched signal wakes at most one coroutine, which waits for signals and watches that one and gets its number as result; pending signals are not lost while watched, and a pending signal some coroutine waits for is delivered.", "quantifier": "every history of watch, unwatch, wait and signal arrivals", "why_tests_cant": "Tests run one schedule each; the claim ranges over every interleaving of API calls, cancels, timeouts and wake-ups.", "anchors": ["neco.c: rt_sched_signal_step", "neco.c: sigallowhandler", "neco.c: signal_wait_dl"]}
{"id": "C35", "title": "neco_work returns after the work is done", "statement": "neco_work returns only after the work function has finished executing in the background.", "quantifier": "every interleaving of worker threads and coroutines", "why_tests_cant": "Tests run one schedule each; the claim ranges over every interleaving of API calls, cancels, timeouts and wake-ups.", "anchors": ["neco.c: workfn", "neco.c: iowork", "neco.c: cancel_dl"]}
{"id": "C36", "title": "Background workers execute every accepted job exactly once in order", "statement": "Every job accepted by a worker thread's queue is executed exactly once, jobs of one thread start in submission order, at most the ring size are queued, and a refused submission changes nothing.", "quantifier": "every interleaving of the submitter and the worker threads", "why_tests_cant": "Thread interleavings.", "anchors": ["neco.c: worker_submit", "neco.c: worker_entry"]}
{"id": "C37", "title": "neco_write delivers exactly the reported prefix", "statement": "When neco_write returns n >= 0 exactly the first n bytes of the buffer were accepted by the descriptor, in order and once each; n < count only if the descriptor reported an error; when it returns -1 no byte was accepted.", "quantifier": "every buffer, every sequence of short writes, EAGAIN, EINTR and errors", "why_tests_cant": "Tests sample a few inputs; the claim is about every input of unbounded size.", "anchors": ["neco.c: write_dl"]}
{"id": "C38", "title": "neco_read returns what one successful read returned", "statement": "neco_read retries EAGAIN and EINTR and returns the result of the first read that succeeds or fails otherwise; no data is consumed and dropped.", "quantifier": "every sequence of syscall results", "why_tests_cant": "Tests sample a few inputs; the claim is about every input of unbounded size.", "anchors": ["neco.c: read_dl"]}
{"id": "C39", "title": "Buffered stream reads return the descriptor's bytes in order", "statement": "The concatenation of the data returned by successful neco_stream_read, readfull and read_byte calls (undoing unread bytes) is a prefix of the bytes the descriptor delivered; the rest is in the buffer.", "quantifier": "every sequence of stream calls and of read results", "why_tests_cant": "Tests sample a few inputs; the claim is about every input of unbounded size.", "anchors": ["neco.c: stream_read_dl", "neco.c: stream_readfull_dl", "neco.c: neco_stream_read_byte_dl", "neco.c: stream_unread_byte"]}
{"id": "C40", "title": "Buffered stream writes reach the descriptor in order", "statement": "Bytes accepted by the descriptor followed by the bytes still buffered equal the concatenation of the data reported as written by neco_stream_write; flush returning NECO_OK leaves the buffer empty.", "quantifier": "every sequence of stream calls and of write results", "why_tests_cant": "Tests sample a few inputs; the claim is about every input of unbounded size.", "anchors": ["neco.c: stream_write_dl", "neco.c: stream_flush_dl"]}
{"id": "C41", "title": "Stream buffers are never overrun", "statement": "All accesses of the stream functions to their buffers stay inside the allocated capacity.", "quantifier": "every sequence of stream calls and buffer sizes", "why_tests_cant": "Tests sample a few inputs; the claim is about every input of unbounded size.", "anchors": ["neco.c: stream_read_dl", "neco.c: stream_write_dl", "neco.c: stream_unread_byte", "neco.c: ensure_rd_data", "neco.c: ensure_wr_data"]}
{"id": "C42", "title": "unread_byte undoes read_byte", "statement": "On a buffered stream neco_stream_unread_byte after a successful neco_stream_read_byte succeeds and restores the stream so that the same byte is read next; it fails with NECO_UNREADFAIL when nothing can be unread.", "quantifier": "every stream state", "why_tests_cant": "Tests sample a few inputs; the claim is about every input of unbounded size.", "anchors": ["neco.c: stream_unread_byte", "neco.c: neco_stream_read_byte_dl"]}
{"id": "C43", "title": "The pseudorandom generator is deterministic and insensitive to chunking", "statement": "With NECO_PRNG the bytes produced depend only on the seed; requesting n bytes (n a multiple of 4) and then m bytes gives the same bytes as requesting n+m at once; neco_rand_setseed returns the previous seed and restoring it replays the same bytes.", "quantifier": "every seed and length", "why_tests_cant": "Tests sample a few inputs; the claim is about every input of unbounded size.", "anchors": ["neco.c: rnext", "neco.c: rgen", "neco.c: rincr", "neco.c: pcgrandom_buf", "neco.c: rand_dl", "neco.c: rand_setseed"]}
{"id": "C44", "title": "Saturating time arithmetic", "statement": "Adding a duration to the current time yields the exact sum when representable and otherwise the nearest representable value, with no overflow on the way; the scheduler's sleep time is always between 0 and 500 ms.", "quantifier": "all pairs of 64-bit integers", "why_tests_cant": "Tests sample a few inputs; the claim is about every input of unbounded size.", "anchors": ["neco.c: i64_add_clamp", "neco.c: rt_sched_paused_step", "neco.c: neco_sleep"]}
{"id": "C45", "title": "Error codes convert faithfully", "statement": "Converting a neco error to errno and back is the identity on the convertible codes; every API return updates the last error to zero on success and to the (converted) code on failure; distinct codes have distinct short names, and distinct texts from neco_strerror, which stay inside of their buffer.", "quantifier": "all error codes and errno values", "why_tests_cant": "Tests sample a few inputs; the claim is about every input of unbounded size.", "anchors": ["neco.c: neco_errconv_to_sys", "neco.c: neco_errconv_from_sys", "neco.c: errhpnd", "neco.c: neco_shortstrerror"]}
{"id": "C46", "title": "TCP address parsing", "statement": "An address host:port is split at the last colon, host in square brackets is stripped of them, an address without a colon is rejected with NECO_INVAL, and no byte outside the string is read.", "quantifier": "all byte strings", "why_tests_cant": "Tests sample a few inputs; the claim is about every input of unbounded size.", "anchors": ["neco.c: parse_tcp_addr"]}
{"id": "C47", "title": "The ordered index used by scheduler maps behaves as a sorted map", "statement": "Insert, delete, search, first, last, next, previous, lower-bound and delete-first/last on the intrusive balanced tree behave as on a sorted list of distinct keys.", "quantifier": "every sequence of operations and keys", "why_tests_cant": "Tests sample a few inputs; the claim is about every input of unbounded size.", "anchors": ["neco.c: AAT_IMPL", "deps/aat.h"]}
{"id": "C48", "title": "The index stays balanced", "statement": "After any sequence of insertions and deletions every path from the root has length at most 2*log2(n+1), so no operation degenerates.", "quantifier": "every sequence of operations", "why_tests_cant": "Balance over unbounded sequences.", "anchors": ["neco.c: AAT_IMPL", "deps/aat.h"]}
{"id": "C49", "title": "Hashed maps behave as one map", "statement": "The sharded maps used for coroutines and descriptor waiters find exactly the element with the given identifier (or the first waiter for a descriptor and direction), whatever the hash does.", "quantifier": "every content and key", "why_tests_cant": "Tests sample a few inputs; the claim is about every input of unbounded size.", "anchors": ["neco.c: comap_search", "neco.c: comap_insert", "neco.c: evmap_iter", "neco.c: sco_map_delete", "neco.c: mix13"]}
{"id": "C50", "title": "Coroutine stacks never overlap", "statement": "The stacks of any two live coroutines are disjoint, lie inside mapped memory and never cover the bookkeeping header; with gaps enabled two stacks are at least a page apart; a stack is reused only after its coroutine gave it back.", "quantifier": "every sequence of stack allocations and releases, all sizes and capacities", "why_tests_cant": "Tests sample a few inputs; the claim is about every input of unbounded size.", "anchors": ["neco.c: stack_get_", "neco.c: stack_put_", "neco.c: stack_group_new", "neco.c: stack_release_group"]}
{"id": "C51", "title": "Stack groups are returned to the system exactly when unused", "statement": "A group of stacks is unmapped exactly once, when the last stack in use is given back, and at that moment no stack of it is referenced by the free list.", "quantifier": "every sequence of stack allocations and releases", "why_tests_cant": "Tests sample a few inputs; the claim is about every input of unbounded size.", "anchors": ["neco.c: stack_put_", "neco.c: stack_release_group", "neco.c: stack_get_"]}
{"id": "C52", "title": "Waiting queues are proper queues", "statement": "Adding a coroutine to a wait queue, taking the first one and removing one from whatever queue it is in behave like the corresponding list operations, and never corrupt another queue.", "quantifier": "every configuration of queues and coroutines", "why_tests_cant": "Tests sample a few inputs; the claim is about every input of unbounded size.", "anchors": ["neco.c: remove_from_list", "neco.c: colist_push_back", "neco.c: colist_pop_front", "neco.c: colist_init"]}
{"id": "C53", "title": "Descriptor waiters are woken by the matching event", "statement": "When the system reports a descriptor readable (writable) every coroutine waiting to read (write) it is made ready and no other; after any wait call the system is asked for every direction some coroutine waits for on that descriptor.", "quantifier": "every set of waiters and sequence of events", "why_tests_cant": "Tests run one schedule each; the claim ranges over every interleaving of API calls, cancels, timeouts and wake-ups.", "anchors": ["neco.c: wait_dl", "neco.c: wait_dl_addevent", "neco.c: rt_sched_event_step", "neco.c: evcompare"]}
{"id": "C54", "title": "Background name lookup hands over its result safely", "statement": "The data shared between neco_getaddrinfo and its helper thread is freed exactly once, never while either side may still use it, also when the call is canceled or times out.", "quantifier": "every interleaving of the coroutine and the helper thread", "why_tests_cant": "Thread interleavings.", "anchors": ["neco.c: getaddrinfo_dl", "neco.c: getaddrinfo_th", "neco.c: cleanup_gai", "neco.c: gai_args_free"]}
{"id": "C55", "title": "Recycled coroutines start fresh", "statement": "A newly started coroutine observes the documented initial state (no started child, no pending cancel, no watched signals) whether or not its control block was used by an earlier coroutine; control blocks idle for 100 ms are released and none is released while in use.", "quantifier": "every history", "why_tests_cant": "Tests run one schedule each; the claim ranges over every interleaving of API calls, cancels, timeouts and wake-ups.", "anchors": ["neco.c: start", "neco.c: cleanup", "neco.c: rt_rc_step"]}
{"id": "C56", "title": "Calls return documented results", "statement": "Every API call of the runtime that returns to its caller returns one of the results documented for it (for a select: an index of one of its channels, or one of its error codes).", "quantifier": "every call, in every history", "why_tests_cant": "Tests run one schedule each; the claim ranges over every interleaving of API calls, cancels, timeouts and wake-ups.", "anchors": ["neco.c: error_guard", "neco.c: checkdl", "neco.c: neco_chan_select", "neco.c: cancel_dl"]}
{"id": "C57", "title": "A pending cancelation is not forgotten by I/O calls", "statement": "If a coroutine is canceled when it calls neco_read, neco_write or a stream function, or while it waits in one, then the call reports the cancelation (or terminates the coroutine), or the coroutine is still canceled after the call.", "quantifier": "every state of the stream, every result of the descriptor", "why_tests_cant": "Tests run one schedule each; the claim ranges over every interleaving of API calls, cancels, timeouts and wake-ups.", "anchors": ["neco.c: checkdl", "neco.c: read_dl", "neco.c: write_dl", "neco.c: stream_read_dl", "neco.c: neco_stream_read_byte_dl", "neco.c: stream_readfull_dl", "neco.c: stream_write_dl"]}
{"id": "C58", "title": "A coroutine that nobody cancels gets truthful results", "statement": "Take a coroutine that nobody cancels and that gives no deadline to a select or a cancelation, started when only such coroutines had ended (in a program that never calls neco_cancel and gives no deadline to a select, that is every coroutine). Whatever the coroutines beside it do: none of its calls returns NECO_CANCELED, NECO_TIMEDOUT is returned only after the deadline of that call, neco_sleep never returns early, neco_suspend returns NECO_OK only after a neco_resume, neco_join only after its target ended, neco_work only after the work is done, neco_wait only after the descriptor was reported ready, and no wake-up meant for one of its calls ever reaches a later one.", "quantifier": "every program and every schedule of it, and every such coroutine in it", "why_tests_cant": "Tests run one schedule each; the claim ranges over every interleaving of API calls, cancels, timeouts and wake-ups.", "anchors": ["neco.c: checkdl", "neco.c: sleep_dl", "neco.c: suspend_dl", "neco.c: join_dl", "neco.c: workfn", "neco.c: wait_dl", "neco.c: rt_sched_paused_step"]}
{"id": "C59", "title": "A coroutine that nobody cancels loses no message", "statement": "For such a coroutine: messages leave each channel in the order they entered it, a channel holds no more than its capacity plus one message per blocked sender, a message given to it is returned by its receive unless the deadline of that receive passed, a receive called when a message waits returns it, a send that returns NECO_OK put its message into the channel once, and while it is blocked in a send (receive) the channel is full (empty).", "quantifier": "every program and every schedule of it, and every such coroutine in it", "why_tests_cant": "Tests run one schedule each; the claim ranges over every interleaving of API calls, cancels, timeouts and wake-ups.", "anchors": ["neco.c: chan_send0", "neco.c: chan_recv", "neco.c: neco_chan_close", "neco.c: neco_chan_selectv"]}
{"id": "C60", "title": "A coroutine that nobody cancels gets exact locks and conditions", "statement": "For such a coroutine: a lock call that returns NECO_OK holds the mutex, nobody who asked later gets it first, it waits for a mutex only while someone holds it (if mutexes are unlocked only by their holders), neco_cond_wait always returns with the mutex held, neco_waitgroup_wait returns NECO_OK only if the counter was zero during the call, and a delivered signal is returned unless the deadline passed.", "quantifier": "every program and every schedule of it, and every such coroutine in it", "why_tests_cant": "Tests run one schedule each; the claim ranges over every interleaving of API calls, cancels, timeouts and wake-ups.", "anchors": ["neco.c: mutex_lock_dl", "neco.c: neco_mutex_unlock", "neco.c: cond_wait_dl", "neco.c: neco_waitgroup_wait_dl", "neco.c: signal_wait_dl"]}
{"id": "C61", "title": "Coroutines get their arguments, and their memory is managed safely", "statement": "From its start until it exits a coroutine sees as argc and argv exactly the arguments it was started with, however many there are and whatever other coroutines start and exit in between; starting and ending coroutines never uses or frees memory that is not there, also when allocations fail; a start that fails starts nothing and leaves nothing behind; when the runtime has ended everything is freed except generators the user still holds.", "quantifier": "every history of starts, exits and generator references, every pattern of failing allocations", "why_tests_cant": "Tests run one schedule each; the claim ranges over every interleaving of API calls, cancels, timeouts and wake-ups.", "anchors": ["neco.c: start", "neco.c: startv", "neco.c: coroutine_new", "neco.c: coroutine_free", "neco.c: cofreeargs", "neco.c: coexit", "neco.c: cleanup", "neco.c: rt_rc_step"]}
{"id": "C62", "title": "Dialing gives a connected descriptor or leaves nothing", "statement": "neco_dial asks the resolver for the host, port and family written in its arguments, tries the addresses in order and returns a non-blocking descriptor connected to the first that works, and nothing else is left open or allocated; when it fails, times out or its coroutine is canceled at any point, every descriptor it opened is closed and all memory freed, exactly once; a cancelation during the call is reported or still pending.", "quantifier": "every address string, every result of every system call, every point of cancelation", "why_tests_cant": "Tests sample a few inputs; the claim is about every input of unbounded size.", "anchors": ["neco.c: dial_connect_dl", "neco.c: dial_tcp_dl", "neco.c: dial_unix_dl", "neco.c: neco_dial_dl", "neco.c: getaddrinfo_from_tcp_addr_dl"]}
{"id": "C63", "title": "Serving and accepting give usable descriptors or leave nothing", "statement": "neco_serve returns a non-blocking descriptor listening at the address asked for, or an error and leaves nothing behind; neco_accept returns a non-blocking descriptor of a new connection, or -1 and leaves nothing behind; neco_accept reports a timeout or cancelation only if there was one, and a cancelation that comes while it waits is never lost.", "quantifier": "every address string, every result of every system call, every point of cancelation", "why_tests_cant": "Tests sample a few inputs; the claim is about every input of unbounded size.", "anchors": ["neco.c: listen_tcp_dl", "neco.c: listen_unix_dl", "neco.c: neco_serve_dl", "neco.c: accept_dl", "neco.c: neco_accept_dl"]}
{"id": "C64", "title": "Connecting is truthful", "statement": "neco_connect returns 0 only if the socket is connected to the given address, and -1 with an error other than a timeout or cancelation only if it is not and will not be; it reports a timeout or cancelation only if there was one, and a cancelation that comes while it waits is never lost.", "quantifier": "every behaviour of the network, every deadline and point of cancelation", "why_tests_cant": "Tests sample a few inputs; the claim is about every input of unbounded size.", "anchors": ["neco.c: connect_dl", "neco.c: neco_connect_dl", "neco.c: checkdl"]}
{"id": "C65", "title": "neco_pipe gives the two ends of one connection", "statement": "When neco_pipe returns 0 the two descriptors are open, non-blocking, the two ends of one new connection in which nothing waits to be read, and nothing else is left open, whatever other processes do; when it returns -1 the array is unchanged, errno says why, and nothing is left open or used afterwards; the cancel state of the caller is the same as before.", "quantifier": "every interleaving of the caller, the helper coroutine and other processes, every result of every call", "why_tests_cant": "Tests run one schedule each; the claim ranges over every interleaving of API calls, cancels, timeouts and wake-ups.", "anchors": ["neco.c: _pipe_", "neco.c: co_pipe", "neco.c: neco_pipe"]}
{"id": "C66", "title": "A cancelation is not lost", "statement": "Once a coroutine has been canceled it is told: the cancel wakes it if it sleeps; an operation it sleeps in when it is canceled returns NECO_CANCELED (or terminates it, with the asynchronous type); if it does not sleep, the next operation it makes that can wait returns NECO_CANCELED, unless that operation has a result that does not need to wait at all (a sleep that is already over, a finished coroutine to join, a closed channel, an unknown coroutine to cancel, no signals watched, not a generator). Until it was told it does not sleep in any operation other than neco_work.", "quantifier": "every program, every schedule, every operation that can wait, every moment at which the cancel arrives", "why_tests_cant": "a test cancels at one moment; losing the mark needs an arrival at a particular point inside one of fifteen operations, and nothing then fails except that a coroutine never ends", "anchors": ["neco.c: cancel_dl, checkdl, copause, coyield, sleep0, suspend_dl, join_dl, chan_send0, chan_tryrecv0, chan_select, mutex_lock_dl, waitgroup_wait_dl, cond_wait_dl, signal_wait_dl, wait_dl"]}
{"id": "C67", "title": "neco_start outside of a runtime gives everything back and reports what happened", "statement": "When a call of neco_start outside of a runtime returns, in any thread, nothing that its runtime allocated is still allocated, no event queue and no library it opened is open, and nothing was freed twice or used after it was freed: whatever the coroutines did, at whichever allocation memory ran out, and whatever other threads with runtimes of their own do at the same time. It returns NECO_OK if the given coroutine has started, and otherwise NECO_NOMEM; NECO_OK if no allocation fails. No two runtimes of a process ever have the same id.", "quantifier": "all interleavings of the steps of any number of threads with their runtimes, all failing allocations, all sequences of coroutines started and ended, channels kept and released, descriptors waited for, jobs, random numbers and signals", "why_tests_cant": "Tests run one runtime after the other and with allocations failing at fixed places; they see neither other interleavings nor every place of failure.", "anchors": ["neco.c: run, startv, rt_scheduler, rt_rc_step, rt_freezchanpool, rt_release, rt_release_dlhandles, worker_new, worker_free, wait_dl, next_runtime_id"]}
{"id": "C68", "title": "Signal dispositions of the program come back; handlers run safely", "statement": "When neco_start returns in the main thread the process has the dispositions it had before the call, for every signal the program did not change itself in the meantime, also if the call failed half-way; calls of neco_start in other threads change none. While coroutines of the main thread run, the signals that can be watched and the fatal ones go to neco: a watched one is counted for its watchers and does nothing else, one that nobody watches ends the process unless it is SIGPIPE, which does nothing, and a fatal one ends the process. No signal that arrives at any moment in any thread makes a handler use memory that is not allocated or a null pointer, and the alternate signal stack the program had is the one it has afterwards.", "quantifier": "all interleavings of threads, all moments and threads at which signals arrive, all calls of sigaction and sigaltstack by the program, all failing allocations", "why_tests_cant": "A test delivers a few signals at a few moments, and to the thread it happens to hit.", "anchors": ["neco.c: rt_handle_signals, rt_restore_signal_handlers, sighandler, sigallowhandler, run, iowrite, write3"]}
{"id": "C69", "title": "An object belongs to one runtime", "statement": "A channel, generator, stream, mutex, waitgroup or condition variable belongs to the runtime that made it, or that first used it if it was zero memory. Calls of any other runtime of the process, running in another thread or started later, are refused with NECO_PERM and do not touch it, so its contents are only ever touched by calls of one runtime; it never changes hands; an object of a runtime that has ended is never used again.", "quantifier": "all interleavings of any number of threads, each with or without a runtime, all sequences of calls on shared objects, all moments at which runtimes start and end", "why_tests_cant": "A test tries a call from one other thread at one moment; the claim is about every interleaving of first uses and of calls in progress.", "anchors": ["neco.c: check_mutex, check_waitgroup, check_cond, mutex_init, waitgroup_init, cond_init, chan_send0, chan_tryrecv0, chan_close, chan_retain, chan_release, chan_select, stream_read_dl, next_runtime_id"]}
{"id": "C70", "title": "A call that may not be made is refused with the right code and has no effect", "statement": "Every public function answers a call with an illegal argument (null pointer, number out of range, unknown network) with NECO_INVAL, a call outside of a runtime, of a signal function outside of the main thread, or on an object of another runtime with NECO_PERM, neco_gen_yield outside of a generator with NECO_NOTGENERATOR; no call is refused without such a reason, each call is answered, and a refused call has changed nothing.", "quantifier": "every public function, every argument, every state of the process, all interleavings with other threads", "why_tests_cant": "Tests try a few illegal arguments of some functions, one thread at a time, and look at the return value only.", "anchors": ["neco.c: startv, yield, sleep_dl, join_dl, suspend_dl, resume, cancel_dl, signal_watch, signal_unwatch, signal_wait_dl, wait_dl, read_dl, write_dl, accept_dl, connect_dl, getaddrinfo_dl, getstats, chan_make, chan_selectv_dl, chan_case, dial_dl, serve_dl, setcanceltype, setcancelstate, _pipe_, rand_dl, workfn, gen_start_chk, neco_gen_yield_dl, stream_make_buffered_size, cond_wait_dl"]}
{"id": "C71", "title": "neco_lasterr tells how the last call of the thread ended", "statement": "When a public function has returned, neco_lasterr() in that thread is 0 if it succeeded, the code if it returned one, the code that stands for errno if it returned -1, NECO_PARTIALWRITE after a short neco_write, NECO_GAIERROR after a failed lookup; and only a call of the same thread that returns changes it.", "quantifier": "every public function, every result and errno, all interleavings with other threads", "why_tests_cant": "A test looks at neco_lasterr after some failing calls, not after every way out of every function.", "anchors": ["neco.c: error_guard, async_error_guard, errhpnd, neco_lasterr, neco_mutex_lock_dl, neco_mutex_rdlock_dl, neco_mutex_trylock, neco_mutex_tryrdlock, neco_gen_yield_dl, neco_write_dl, neco_getaddrinfo_dl, neco_stream_read_byte_dl"]}
{"id": "C72", "title": "Nobody is kept waiting", "statement": "A coroutine that is ready to run, that another one woke, or whose deadline has passed gets its turn before the other coroutines have taken more turns than a fixed small multiple of the number of unfinished coroutines (plus an allowance for each coroutine started meanwhile); a call whose deadline has passed returns in that turn; and a call that does not wait for anything never blocks the caller.", "quantifier": "every execution, every state in it, every continuation of any length, every call and deadline", "why_tests_cant": "A test sees that a coroutine is run in the end in a few schedules; a bound on the waiting time holds over all programs and schedules.", "anchors": ["neco.c: sco_yield, sco_resume, sco_start, rt_sched_paused_step, checkdl, copause"]}
{"id": "C73", "title": "A program that keeps the rules runs into nothing undefined", "statement": "If a program uses and releases only channels it has a reference to, gives up its last reference to a channel when no coroutine is in a call on that channel, keeps every wait group counter in the range of an int, pops only cleanup handlers it pushed and pops them before its functions return, then no call and no other activity of the library is undefined in C (no use after free, no freed queue with somebody in it, no overflow, no empty pop), in whatever order its coroutines do whatever they do. A channel stays allocated as long as the program has a reference to it or its generator runs, and is freed when neither is the case.", "quantifier": "all programs that keep these rules, all schedules, all deadlines, cancelations, signals, descriptor events and worker completions", "why_tests_cant": "A sanitizer run shows that one execution is defined; the claim is about all programs that keep the rules and all their executions.", "anchors": ["neco.c: chan_make, chan_retain, chan_release, chan_send0, chan_broadcast0, chan_recv_dl, chan_tryrecv0, chan_close, chan_select, gen_start, coexit, waitgroup_add, cleanup_push, cleanup_pop"]}
{"id": "C74", "title": "The library always comes to rest", "statement": "Whatever the coroutines have done, the library works only for a bounded number of steps on its own: then the code of some coroutine runs again, background threads are offered work, the system is asked for events, or neco_start is over. It never spins, also not while time passes, signals arrive and background work finishes, and it never gets stuck: in every state somebody can act, and a program that keeps the rules of C73 meets nothing undefined on the way.", "quantifier": "every execution, every state in it, every interleaving of the library's steps with the clock, signals and finishing background work", "why_tests_cant": "A livelock shows as a test that hangs in one schedule; that there is none in any schedule, and no stuck state, cannot be seen from runs that end.", "anchors": ["neco.c: rt_scheduler, rt_sched_paused_step, sco_switch, coyield, yield_for_sched_resume, copause, cancel_dl, cond_wait_dl, mutex_lock_dl, coexit"]}
{"id": "C75", "title": "The library sleeps when there is nothing to do, and never too long", "statement": "Before it asks the system for events, the library picks how long to wait. The wait is always well defined and at most 500 ms. It is zero while a coroutine is ready, while a watched signal is undelivered and while a coroutine is blocked in neco_work, and it never reaches beyond the deadline of a blocked call. Otherwise it is as long as the deadlines allow, up to 500 ms and up to rounding to a millisecond, so the library does not burn the processor.", "quantifier": "every execution of the runtime, every set of blocked coroutines and deadlines, every clock value in 64 bits", "why_tests_cant": "oversleeping or spinning needs a particular mix of deadlines, signals and ready coroutines at one moment", "anchors": ["neco.c: rt_sched_paused_step", "neco.c: rt_sched_event_step", "neco.c: rt_sched_signal_step", "neco.c: i64_add_clamp"]}
{"id": "C76", "title": "A signal is not lost between its handler and the scheduler", "statement": "A watched signal may arrive at any moment, also while the scheduler is taking an earlier one out of the queue and while the handler of another signal runs. Each arrival is handed out once or is still queued; while one is queued the scheduler looks at the queues, and when none is queued it does not.", "quantifier": "every interleaving, at the granularity of single reads and writes, of signal arrivals, nested handlers and the scheduler", "why_tests_cant": "the windows are a few instructions wide; a test that sends signals practically never hits them", "anchors": ["neco.c: sigallowhandler", "neco.c: rt_sched_signal_step", "neco.c: rt_handle_signals", "neco.c: rt_sched_paused_step"]}
{"id": "C77", "title": "Background work does not disturb the waiting queues", "statement": "While background threads finish work passed to neco_work, the program goes on sending, receiving, locking and waiting. However their instructions interleave, there is no data race, every waiting queue keeps exactly its coroutines in their order, every queue operation gives the result it would give without threads, and every coroutine whose work is done is found again exactly once.", "quantifier": "every number of background tasks, every sequence of queue operations, every interleaving at the granularity of single reads and writes of links", "why_tests_cant": "a data race shows only under particular interleavings of a few instructions in two threads", "anchors": ["neco.c: iowork", "neco.c: workfn", "neco.c: rt_sched_paused_step", "neco.c: colist_push_back", "neco.c: colist_pop_front", "neco.c: remove_from_list"]}
{"id": "C78", "title": "The stack of a coroutine is given back once, after the coroutine has ended, and nobody runs on it", "statement": "Whatever a program starts, yields, blocks, resumes and ends: the processor runs on the stack of the coroutine that neco takes for the running one; the stack of a coroutine is released exactly once, after the coroutine ended and control has left the stack, and before any other code of the program runs; a coroutine that has not ended keeps its stack, shares it with nobody, and can be switched to.", "quantifier": "every sequence of starts, yields, pauses, resumes and ends of any number of coroutines, with stacks reused in any way", "why_tests_cant": "releasing a stack too early or twice corrupts memory only when the stack is reused at the wrong moment", "anchors": ["neco.c: llco_switch0", "neco.c: llco_switch", "neco.c: llco_start", "neco.c: llco_cleanup_last", "neco.c: llco_entry_wrap", "neco.c: sco_switch", "neco.c: sco_entry", "neco.c: cleanup"]}
{"id": "C79", "title": "What is done with one object or by one coroutine leaves the others alone", "statement": "In every execution, a channel, mutex, wait group or condition variable, and the queue of those who wait at it, changes only by what concerns it: a coroutine making or being in a call that names it, the coroutine that creates it, or a generator ending whose channel it is. A coroutine's cancelation type and state, cleanup handlers, watched signals and the identifiers it was told change only while it runs, and its data buffer is written by others only while it waits in a receive, through the channel it receives from.", "quantifier": "every execution, every step and every stretch of steps, every object and every coroutine", "why_tests_cant": "a test sees a few objects; that nothing else is touched must hold for every combination of objects, waiters and calls", "anchors": ["neco.c: remove_from_list", "neco.c: colist_push_back", "neco.c: chan_send0", "neco.c: chan_tryrecv0", "neco.c: chan_select", "neco.c: mutex_fastunlock", "neco.c: waitgroup_done", "neco.c: cond_wait_dl", "neco.c: coexit", "neco.c: iowork"]}
{"id": "C80", "title": "A coroutine that waits for a descriptor goes on once the descriptor is ready, and because of it", "statement": "While a coroutine waits in neco_wait, neco_read, neco_write or another descriptor call, the library has asked the system to report that file in that direction, and the first look for events after the file has become ready makes the coroutine ready to run (16 files at a time). A coroutine made ready by an event was waiting for a file that was ready in its direction. A call on a bad descriptor or on a file that cannot be polled returns an error at once and disturbs nobody; the event queue is one, exists while somebody waits, and is given back only when nobody does.", "quantifier": "every interleaving of opening, duplicating and closing descriptors, files becoming ready, waits, cancelations, deadlines, event reports and clean-ups of the queue", "why_tests_cant": "registrations are one-shot, belong to open files and not to numbers, and die with them: a lost one shows only for one order of closing, waiting and reporting", "anchors": ["neco.c: wait_dl", "neco.c: wait_dl_addevent", "neco.c: evexists", "neco.c: rt_sched_event_step", "neco.c: rt_rc_step", "neco.h: neco_wait"]}
{"id": "C81", "title": "Cleanup handlers are called once, last pushed first, and all of them, whatever the handlers do", "statement": "Whatever a coroutine's function and its cleanup handlers do (suspend, push and pop further handlers, call neco_exit, be canceled): a handler is called at most once; a pop takes off what the same function pushed last; when a handler comes off, all pushed after it have come off; after the coroutine was terminated only handlers run in it; by the time its id is unknown and those who join it are woken every handler pushed was called or popped; after that none of its code runs; and a handler that was called returns unless the coroutine is terminated again while it runs", "quantifier": "all functions and handlers, as sequences of push, pop, exit, return, suspending calls, and all arrivals of cancels and joins", "why_tests_cant": "handlers that suspend can be interrupted by the end of the coroutine they belong to; the nesting of ends within handlers has no bound", "anchors": ["neco.c: cleanup_push", "neco.c: cleanup_pop", "neco.c: coexit", "neco.c: coyield", "neco.c: yield_for_sched_resume", "neco.h: neco_exit", "neco.h: neco_cleanup_push", "neco.h: neco_cleanup_pop"]}
{"id": "C82", "title": "A program written with neco_main ends with the code its main function returned", "statement": "The process ends with the code that the main function returned, at the moment the first coroutine of the main thread ends after that return (no other coroutine of that thread ends in between, coroutines of other threads do not matter); it ends with another status only if the main function never returned (neco_exit or a cancel) and every coroutine of the main thread has ended, or because standard output or error was a broken pipe; what is written to the standard output is what was printed, in order, and all of it", "quantifier": "all orders in which coroutines of all threads begin, print, return, exit and end", "why_tests_cant": "whether output is lost and which coroutine ends first depends on buffering and on the schedule; the process is gone when it could be asked", "anchors": ["neco.h: neco_main", "neco.c: __neco_exit_prog", "neco.c: cleanup", "neco.c: write1"]}
{"id": "C83", "title": "A failed name lookup is reported truthfully", "statement": "When neco_getaddrinfo returns, it returns what the lookup came to; errno is what the lookup left if that is EAI_SYSTEM; neco_lasterr() is 0, the code for errno, or NECO_GAIERROR accordingly; neco_gai_lasterr() is the code of the last lookup that failed, also after a neco_dial that returned NECO_GAIERROR; and the coroutine is terminated only if it was canceled", "quantifier": "all interleavings of the coroutines of a thread, with lookups, other calls, system calls of the program and cancelations, and all results of the lookups", "why_tests_cant": "errno and the two error variables belong to the thread while the call lets other coroutines run; a wrong value needs another coroutine to run at one point", "anchors": ["neco.c: getaddrinfo_dl", "neco.c: neco_getaddrinfo_dl", "neco.c: neco_errconv_from_gai", "neco.c: getaddrinfo_from_tcp_addr_dl", "neco.h: neco_gai_lasterr", "neco.h: neco_lasterr", "neco.h: neco_dial"]}
{"id": "C84", "title": "Memory goes back to the allocator it came from", "statement": "When a program sets no allocator, or calls neco_env_setallocator once with the three functions of one allocator before the first call that takes memory, every block the library asks to be resized or gives back goes to the allocator that gave it, once, while it is out. A refused request gives NULL and leaves every block as it was: resizing that fails keeps the old block. The process is stopped exactly when panic on error is set and a request of more than zero bytes gives NULL.", "quantifier": "every sequence of requests, granted or refused, and of settings", "why_tests_cant": "a block given to the wrong allocator needs one sequence of settings and requests, and every allocation can be the one that fails", "anchors": ["neco.h: neco_env_setallocator", "neco.h: neco_env_setpaniconerror", "neco.c: neco_malloc", "neco.c: neco_realloc", "neco.c: neco_free"]}
{"id": "C85", "title": "A broken standard output ends the program, a broken pipe elsewhere is reported", "statement": "When neco_write to standard output or standard error finds that the reader of the pipe is gone, the process ends at once with status 160, having written a beginning of the data in order; a write to those descriptors that returns never reports a broken pipe. A write to any other descriptor, and a write whose reader is there, never ends the process.", "quantifier": "every sequence of results of the system, deadlines, cancelations and data", "why_tests_cant": "the reader can go away in any round of the write, after any number of partial writes and waits", "anchors": ["neco.c: write1", "neco.c: write_dl", "neco.h: neco_write", "neco.h: neco_write_dl"]}
{"id": "C86", "title": "A coroutine stands in line only for the call it is in", "statement": "Whoever waits in line for a channel, mutex, wait group, condition, the end or the cancelation of a coroutine, or a signal is inside a call that waits for exactly that; a call that has ended, well or by cancelation or deadline, leaves no entry behind, and a coroutine in its own code or ended stands nowhere. Nobody is in a line twice or in two lines, except a select, which has one entry for each of its channels. In front of a channel there are only senders or only receivers, and nobody when its memory was given back.", "quantifier": "every reachable state of every execution", "why_tests_cant": "an entry left behind by one of the many ways a call can end points into a dead stack and shows only when a later operation reaches it", "anchors": ["neco.c: remove_from_list", "neco.c: chan_select", "neco.c: chan_send0", "neco.c: chan_tryrecv0", "neco.c: mutex_lock_dl", "neco.c: cond_wait_dl", "neco.h: neco_chan_select", "neco.h: neco_join", "neco.h: neco_cancel"]}
