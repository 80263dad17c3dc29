{
 "claims": [
  {
   "property": "C01",
   "status": "proved",
   "theorems": [
    "Neco.Rt.C01_ids_increase",
    "Neco.Rt.C01_running_started",
    "Neco.Rt.C01_getid",
    "Neco.Rt.C01_starterid",
    "Neco.Rt.C01_lastid",
    "Neco.Rt.C01_lastid_after_start"
   ],
   "note": ""
  },
  {
   "property": "C02",
   "status": "proved",
   "theorems": [
    "Neco.Sco.C02_exactly_one",
    "Neco.Sco.C02_finished_stays",
    "Neco.Sco.C02_no_bad_dispatch",
    "Neco.Rt.C02_somewhere",
    "Neco.Rt.C02_not_two",
    "Neco.Rt.C02_over_stays"
   ],
   "note": ""
  },
  {
   "property": "C03",
   "status": "partial",
   "theorems": [
    "Neco.Sco.C03_due_this_round",
    "Neco.Sco.C03_fair_partial",
    "Neco.Sco.C03_yield_goes_last",
    "Neco.Sco.C03_false_starvation"
   ],
   "note": "bounded waiting is false for yielded coroutines when others keep starting coroutines (refuted); proved with an allowance per start"
  },
  {
   "property": "C04",
   "status": "proved",
   "theorems": [
    "Neco.Sco.C04_runs_at_once",
    "Neco.Sco.C04_starter_before_yielders"
   ],
   "note": ""
  },
  {
   "property": "C05",
   "status": "partial",
   "theorems": [
    "Neco.Rt.C05_suspend_ok_partial",
    "Neco.Rt.C05_suspend_ok_not_general",
    "Neco.Rt.C05_resume_event",
    "Neco.Rt.C05_resume_result",
    "Neco.Rt.C05_resume_wakes"
   ],
   "note": "suspend can return NECO_OK without a resume after a canceled select left a wake-up behind (refuted); proved for executions without such stale wake-ups; the clauses about resume hold in every execution"
  },
  {
   "property": "C06",
   "status": "partial",
   "theorems": [
    "Neco.Rt.C06_join_ok_partial",
    "Neco.Rt.C06_join_ok_not_general",
    "Neco.Rt.C06_join_nowait",
    "Neco.Rt.C06_join_self",
    "Neco.Rt.C06_join_self_result",
    "Neco.Rt.C06_join_wakes_partial"
   ],
   "note": "join can return early after a canceled neco_work (refuted); proved for calls made with no wake-up of the caller left over (whatever else happens)"
  },
  {
   "property": "C07",
   "status": "proved",
   "theorems": [
    "Neco.Sco.C07_loop_ends_iff",
    "Neco.Rt.C07_nobody_left",
    "Neco.Rt.C07_progress"
   ],
   "note": ""
  },
  {
   "property": "C08",
   "status": "partial",
   "theorems": [
    "Neco.Rt.C08_sleep_ok_partial",
    "Neco.Rt.C08_sleep_ok_not_general",
    "Neco.Rt.C08_sleep_past",
    "Neco.Rt.C08_sleep_timedout"
   ],
   "note": "sleep can return early after a canceled select (refuted); proved for calls made with no wake-up of the caller left over (whatever else happens); the NECO_TIMEDOUT clause holds in every execution"
  },
  {
   "property": "C09",
   "status": "partial",
   "theorems": [
    "Neco.Rt.C09_timedout_partial",
    "Neco.Rt.C09_timedout_not_general",
    "Neco.Rt.C09_deadline_wakes"
   ],
   "note": "an expiry recorded in neco_cancel_dl can leak into the next call (refuted); proved for executions without stale state; that each pass wakes the expired holds in every execution"
  },
  {
   "property": "C10",
   "status": "proved",
   "theorems": [
    "Neco.Maps.C10_expired_in_order",
    "Neco.Rt.C10_pass",
    "Neco.Rt.C10_loop"
   ],
   "note": "C10_expired_in_order is about the tree, C10_pass about every execution of the runtime, C10_loop relates the two walks over the queue"
  },
  {
   "property": "C11",
   "status": "partial",
   "theorems": [
    "Neco.Rt.C11_capacity",
    "Neco.Ring.C11_buffer_partial",
    "Neco.Ring.C11_room_partial",
    "Neco.Ring.C11_outside_partial",
    "Neco.Ring.C11_buffer_not_general"
   ],
   "note": "capacity: in every execution. Bytes: the buffer refines a FIFO queue, in bounds and with disjoint slots, for every sequence of operations, if msgsize*capacity and 2*capacity fit in an int; proved false otherwise."
  },
  {
   "property": "C12",
   "status": "partial",
   "theorems": [
    "Neco.Rt.C12_order",
    "Neco.Rt.C12_oldest",
    "Neco.Rt.C12_put",
    "Neco.Rt.C12_withdraw",
    "Neco.Rt.C12_recv_ok_partial",
    "Neco.Rt.C12_tryrecv",
    "Neco.Rt.C12_recv_now",
    "Neco.Rt.C12_send_ok_partial",
    "Neco.Rt.C12_send_ok_not_general"
   ],
   "note": "order, no loss, no duplication inside the channel: in every execution. tryrecv, and a receive from a channel that holds something: in every execution. What NECO_OK of a send or of a receive that waited says: for calls made with no wake-up of the caller left over (whatever else happens); refuted in general (a coroutine canceled inside neco_work)"
  },
  {
   "property": "C13",
   "status": "partial",
   "theorems": [
    "Neco.Rt.C13_sent_partial",
    "Neco.Rt.C13_taker_partial",
    "Neco.Rt.C13_tryrecv",
    "Neco.Rt.C13_not_general"
   ],
   "note": "a message handed to a receiver that is canceled or times out before it runs is lost (refuted); proved otherwise"
  },
  {
   "property": "C14",
   "status": "partial",
   "theorems": [
    "Neco.Rt.C14_send_partial",
    "Neco.Rt.C14_recv_partial",
    "Neco.Rt.C14_not_general"
   ],
   "note": "for calls made with no wake-up of the caller left over (whatever else happens); refuted in general"
  },
  {
   "property": "C15",
   "status": "partial",
   "theorems": [
    "Neco.Rt.C15_closed_for_sending",
    "Neco.Rt.C15_nothing_enters",
    "Neco.Rt.C15_accepted",
    "Neco.Rt.C15_drained_partial",
    "Neco.Rt.C15_blocked_partial",
    "Neco.Rt.C15_woken_partial",
    "Neco.Rt.C15_close_wakes_partial",
    "Neco.Rt.C15_drained_not_general",
    "Neco.Rt.C15_blocked_not_general"
   ],
   "note": "a closed channel whose last blocked sender gives up never reports closed to receivers; proved for channels no blocked sender of which gave up"
  },
  {
   "property": "C16",
   "status": "partial",
   "theorems": [
    "Neco.Rt.C16_broadcast_partial",
    "Neco.Rt.C16_counted_not_general"
   ],
   "note": "the broadcast reaches exactly the receivers waiting at the call; a counted receiver that is canceled or times out before it runs loses the message (refuted)"
  },
  {
   "property": "C17",
   "status": "partial",
   "theorems": [
    "Neco.Rt.C17_select",
    "Neco.Rt.C17_one_partial",
    "Neco.Rt.C17_blocks_partial",
    "Neco.Rt.C17_error_not_general"
   ],
   "note": "what a select decides when it is called: in every execution. What a select that waited returns: for calls made with no wake-up of the caller left over (whatever else happens); refuted in general"
  },
  {
   "property": "C18",
   "status": "partial",
   "theorems": [
    "Neco.Rt.C18_case_partial",
    "Neco.Rt.C18_case_not_general"
   ],
   "note": "proved for every execution in which no other coroutine selects on the channel; refuted for two selecting coroutines, which share the message slot of the channel"
  },
  {
   "property": "C19",
   "status": "partial",
   "theorems": [
    "Neco.Ref.C19_usable_partial",
    "Neco.Ref.C19_once_partial",
    "Neco.Ref.C19_end_partial",
    "Neco.Ref.C19_make_partial",
    "Neco.Ref.C19_safe_partial",
    "Neco.Ref.C19_made",
    "Neco.Ref.C19_pool",
    "Neco.Ref.C19_safe_not_general"
   ],
   "note": "for fewer than 2^31 references to a channel at a time; the counter is an int and is proved to overflow otherwise."
  },
  {
   "property": "C20",
   "status": "partial",
   "theorems": [
    "Neco.Rt.C20_notgenerator",
    "Neco.Rt.C20_yield_partial",
    "Neco.Rt.C20_put",
    "Neco.Rt.C20_values",
    "Neco.Rt.C20_end_partial",
    "Neco.Rt.C20_end_not_general"
   ],
   "note": "a generator canceled in neco_gen_yield after its consumer closed it leaves a channel that never reports NECO_CLOSED (refuted); proved otherwise"
  },
  {
   "property": "C21",
   "status": "partial",
   "theorems": [
    "Neco.Rt.C21_exclusive",
    "Neco.Rt.C21_try",
    "Neco.Rt.C21_lock_ok_partial",
    "Neco.Rt.C21_not_general"
   ],
   "note": "exclusion holds for every history, and the try variants are settled by who holds the mutex, in every execution; that a successful lock call holds the mutex is proved for calls made with no wake-up of the caller left over (whatever else happens) and refuted in general"
  },
  {
   "property": "C22",
   "status": "partial",
   "theorems": [
    "Neco.Rt.C22_ask",
    "Neco.Rt.C22_release",
    "Neco.Rt.C22_order",
    "Neco.Rt.C22_in_line",
    "Neco.Rt.C22_queue_partial",
    "Neco.Rt.C22_fifo_partial",
    "Neco.Rt.C22_not_general"
   ],
   "note": "joining the line, hand-over and order of the queue for every history; that every waiter is queued, and first come first served, for calls made with no wake-up of the caller left over; refuted in general"
  },
  {
   "property": "C23",
   "status": "partial",
   "theorems": [
    "Neco.Rt.C23_held_partial",
    "Neco.Rt.C23_line_locked",
    "Neco.Rt.C23_unlock_free",
    "Neco.Rt.C23_not_general"
   ],
   "note": "for calls made with no wake-up of the caller left over; refuted in general"
  },
  {
   "property": "C24",
   "status": "partial",
   "theorems": [
    "Neco.Rt.C24_partial",
    "Neco.Rt.C24_not_general"
   ],
   "note": "false of the code when the mutex is handed to the waiter before it is canceled or times out (refuted); proved when nobody releases the mutex during the call"
  },
  {
   "property": "C25",
   "status": "partial",
   "theorems": [
    "Neco.Rt.C25_add",
    "Neco.Rt.C25_done",
    "Neco.Rt.C25_count",
    "Neco.Rt.C25_wait_partial",
    "Neco.Rt.C25_wait_not_general"
   ],
   "note": "counting for every history; the clause about wait for calls made with no wake-up of the caller left over, refuted in general"
  },
  {
   "property": "C26",
   "status": "partial",
   "theorems": [
    "Neco.Rt.C26_done_wakes",
    "Neco.Rt.C26_queue_partial",
    "Neco.Rt.C26_blocked_partial",
    "Neco.Rt.C26_not_general"
   ],
   "note": "false of the code when neco_waitgroup_add with a negative delta brings the counter to zero (refuted); proved otherwise, for calls made with no wake-up of the caller left over"
  },
  {
   "property": "C27",
   "status": "partial",
   "theorems": [
    "Neco.Rt.C27_signal",
    "Neco.Rt.C27_broadcast",
    "Neco.Rt.C27_order",
    "Neco.Rt.C27_in_line",
    "Neco.Rt.C27_queue_partial"
   ],
   "note": "that every sleeper in neco_cond_wait is in line is proved for calls made with no wake-up of the caller left over; the rest for every history"
  },
  {
   "property": "C28",
   "status": "partial",
   "theorems": [
    "Neco.Rt.C28_partial",
    "Neco.Rt.C28_not_general",
    "Neco.Rt.C28_self_not_general"
   ],
   "note": "for calls made with no wake-up of the caller left over; refuted in general; also refuted: such a waiter can end up waiting for a mutex it holds itself"
  },
  {
   "property": "C29",
   "status": "partial",
   "theorems": [
    "Neco.Rt.C29_partial",
    "Neco.Rt.C29_not_general"
   ],
   "note": "false of the code when somebody is in line for the mutex (refuted); proved otherwise"
  },
  {
   "property": "C30",
   "status": "partial",
   "theorems": [
    "Neco.Rt.C30_partial",
    "Neco.Rt.C30_report_partial",
    "Neco.Rt.C30_not_general",
    "Neco.Rt.C30_twice_not_general"
   ],
   "note": "proved when no control block with a pending cancel is reused; refuted in general, and a coroutine can be terminated twice by one cancel"
  },
  {
   "property": "C31",
   "status": "partial",
   "theorems": [
    "Neco.Rt.C31_enabled",
    "Neco.Rt.C31_target",
    "Neco.Rt.C31_notfound",
    "Neco.Rt.C31_notfound_only",
    "Neco.Rt.C31_wait_partial",
    "Neco.Rt.C31_wait_not_general"
   ],
   "note": "the first two sentences are proved for every execution; that a waiting canceler proceeds when the state is enabled again is false of the code (refuted)"
  },
  {
   "property": "C32",
   "status": "partial",
   "theorems": [
    "Neco.Rt.C32_partial",
    "Neco.Rt.C32_all_partial",
    "Neco.Rt.C32_when_partial",
    "Neco.Rt.C32_not_general"
   ],
   "note": "proved for histories in which every function that returns has popped its handlers; refuted otherwise (the handler leaks into the next coroutine)"
  },
  {
   "property": "C33",
   "status": "partial",
   "theorems": [
    "Neco.Rt.C33_waiting",
    "Neco.Rt.C33_blocked",
    "Neco.Rt.C33_answer",
    "Neco.Rt.C33_live_partial",
    "Neco.Rt.C33_live_not_general"
   ],
   "note": "the per-kind counters are exact in every execution; the number of coroutines is exact unless a coroutine is terminated by a cancelation while already ending (refuted)"
  },
  {
   "property": "C34",
   "status": "partial",
   "theorems": [
    "Neco.Rt.C34_at_most_one",
    "Neco.Rt.C34_waiter",
    "Neco.Rt.C34_watches_partial",
    "Neco.Rt.C34_once",
    "Neco.Rt.C34_result_partial",
    "Neco.Rt.C34_told_partial",
    "Neco.Rt.C34_no_loss_partial",
    "Neco.Rt.C34_due_partial",
    "Neco.Rt.C34_watches_not_general",
    "Neco.Rt.C34_due_not_general",
    "Neco.Rt.C34_told_not_general",
    "Neco.Rt.C34_result_not_general"
   ],
   "note": "at most one waiter per arrival and one arrival per wait in every execution; refuted: a recycled coroutine inherits watched signals, a lower pending signal that nobody waits for blocks higher ones, a signal handed to a waiter that times out or is canceled in the same pass is lost"
  },
  {
   "property": "C35",
   "status": "partial",
   "theorems": [
    "Neco.Rt.C35_partial",
    "Neco.Rt.C35_not_general"
   ],
   "note": "neco_cancel makes the call return before the work is done (refuted); proved when nobody cancels the caller, for calls made with no wake-up of the caller left over"
  },
  {
   "property": "C36",
   "status": "partial",
   "theorems": [
    "Neco.Worker.C36_order",
    "Neco.Worker.C36_one",
    "Neco.Worker.C36_bound",
    "Neco.Worker.C36_inside",
    "Neco.Worker.C36_size",
    "Neco.Worker.C36_submit",
    "Neco.Worker.C36_pick",
    "Neco.Worker.C36_thread",
    "Neco.Worker.C36_alive_partial",
    "Neco.Worker.C36_done_partial",
    "Neco.Worker.C36_close_partial",
    "Neco.Worker.C36_lost_not_general",
    "Neco.Worker.C36_stuck",
    "Neco.Worker.C36_refused_not_general"
   ],
   "note": "order, at most once, bound and refusal in every interleaving; that every accepted job is executed is false when pthread_create fails (refuted: the error is not noticed), proved when it does not"
  },
  {
   "property": "C37",
   "status": "partial",
   "theorems": [
    "Neco.Io.C37_prefix_partial",
    "Neco.Io.C37_error_partial",
    "Neco.Io.C37_error_not_general",
    "Neco.Io.C37_deadline_not_general",
    "Neco.Io.C37_prefix_not_general",
    "Neco.Io.C37_ends"
   ],
   "note": "False in general: after a cancelation or an expired deadline in the middle of the call the result is -1 although bytes were accepted; and when a coroutine is woken before its worker thread is done the bytes are written twice. Proved for the rest."
  },
  {
   "property": "C38",
   "status": "proved",
   "theorems": [
    "Neco.Io.C38_read",
    "Neco.Burst.C38_burst",
    "Neco.Burst.C38_burst_cancel",
    "Neco.Burst.C38_burst_count",
    "Neco.Burst.C38_read_ends",
    "Neco.Burst.C38_burst_ends"
   ],
   "note": ""
  },
  {
   "property": "C39",
   "status": "proved",
   "theorems": [
    "Neco.Io.C39_order",
    "Neco.Io.C39_read",
    "Neco.Io.C39_readfull",
    "Neco.Io.C39_byte",
    "Neco.Io.C39_read_ends",
    "Neco.Io.C39_readfull_ends",
    "Neco.Io.C39_byte_ends"
   ],
   "note": ""
  },
  {
   "property": "C40",
   "status": "partial",
   "theorems": [
    "Neco.Io.C40_order_partial",
    "Neco.Io.C40_flush",
    "Neco.Io.C40_close_partial",
    "Neco.Io.C40_close_clean",
    "Neco.Io.C40_order_not_general",
    "Neco.Io.C40_flush_ends",
    "Neco.Io.C40_flush_empty",
    "Neco.Io.C40_write_ends",
    "Neco.Io.C40_close_ends"
   ],
   "note": "False when a flush is canceled or times out after a part was accepted: the part is sent again. Proved when the calls that write are not disturbed; the claim about flush holds in general."
  },
  {
   "property": "C41",
   "status": "partial",
   "theorems": [
    "Neco.Io.C41_bounds",
    "Neco.Io.C41_release",
    "Neco.Io.C41_close_partial",
    "Neco.Io.C41_close_not_general",
    "Neco.Io.C41_make_partial",
    "Neco.Io.C41_make_not_general"
   ],
   "note": "Every access of every history of a stream that was set up is inside of its buffers; but setting one up with a size near SIZE_MAX overflows. Whenever neco_stream_close returns all memory was given back; not so when the coroutine is terminated in it."
  },
  {
   "property": "C42",
   "status": "proved",
   "theorems": [
    "Neco.Io.C42_unread",
    "Neco.Io.C42_fail"
   ],
   "note": ""
  },
  {
   "property": "C43",
   "status": "proved",
   "theorems": [
    "Neco.Rand.C43_stream",
    "Neco.Rand.C43_split",
    "Neco.Rand.C43_rand",
    "Neco.Rand.C43_rand_length",
    "Neco.Rand.C43_setseed_replay",
    "Neco.Rand.C43_step_injective",
    "Neco.Rand.C43_output_is_pcg",
    "Neco.Rand.C43_pcg"
   ],
   "note": ""
  },
  {
   "property": "C44",
   "status": "proved",
   "theorems": [
    "Neco.Arith.C44_add_clamp",
    "Neco.Arith.C44_timeout_range",
    "Neco.Arith.C44_no_oversleep",
    "Neco.Arith.C44_sleep_deadline"
   ],
   "note": ""
  },
  {
   "property": "C45",
   "status": "partial",
   "theorems": [
    "Neco.Err.C45_roundtrip",
    "Neco.Err.C45_roundtrip_sys",
    "Neco.Err.C45_fromSys_range",
    "Neco.Err.C45_lasterr",
    "Neco.Err.C45_guard_effects",
    "Neco.Err.C45_names_injective",
    "Neco.Err.C45_names_partial",
    "Neco.Err.C45_names_false",
    "Neco.Text.C45_text",
    "Neco.Text.C45_text_injective",
    "Neco.Text.C45_text_fits",
    "Neco.Text.C45_text_not_general"
   ],
   "note": "NECO_EOF has no short name and no text in the code: the naming clause is false and refuted; the long number of an undefined code is cut (refuted); everything else proved"
  },
  {
   "property": "C46",
   "status": "proved",
   "theorems": [
    "Neco.Addr.C46_no_out_of_bounds",
    "Neco.Addr.C46_reject_iff",
    "Neco.Addr.C46_split_last_colon"
   ],
   "note": ""
  },
  {
   "property": "C47",
   "status": "proved",
   "theorems": [
    "Neco.Aat.C47_contents",
    "Neco.Aat.C47_reports",
    "Neco.Aat.C47_queries",
    "Neco.Aat.C47_spec_insert_mem"
   ],
   "note": ""
  },
  {
   "property": "C48",
   "status": "proved",
   "theorems": [
    "Neco.Aat.C48_balanced"
   ],
   "note": ""
  },
  {
   "property": "C49",
   "status": "proved",
   "theorems": [
    "Neco.Maps.C49_lookup",
    "Neco.Maps.C49_lookup_mix13",
    "Neco.Maps.C49_shard_in_range",
    "Neco.Maps.C49_paused_delete",
    "Neco.Maps.C49_paused_count"
   ],
   "note": ""
  },
  {
   "property": "C50",
   "status": "partial",
   "theorems": [
    "Neco.Stack.C50_size",
    "Neco.Stack.C50_disjoint",
    "Neco.Stack.C50_gap",
    "Neco.Stack.C50_mapped",
    "Neco.Stack.C50_bookkeeping",
    "Neco.Stack.C50_get",
    "Neco.Stack.C50_drop",
    "Neco.Stack.C50_guards",
    "Neco.Stack.C50_overflow_not_general"
   ],
   "note": "proved for every sequence and all sizes for which the size of a group fits in size_t; refuted beyond (the computation wraps around and the stacks lie outside of the mapping)"
  },
  {
   "property": "C51",
   "status": "proved",
   "theorems": [
    "Neco.Stack.C51_once",
    "Neco.Stack.C51_in_use",
    "Neco.Stack.C51_exactly",
    "Neco.Stack.C51_get",
    "Neco.Stack.C51_free",
    "Neco.Stack.C51_defined",
    "Neco.Stack.C51_destroy"
   ],
   "note": ""
  },
  {
   "property": "C52",
   "status": "proved",
   "theorems": [
    "Neco.Colist.C52_queues",
    "Neco.Colist.C52_step",
    "Neco.Colist.C52_determined"
   ],
   "note": ""
  },
  {
   "property": "C53",
   "status": "partial",
   "theorems": [
    "Neco.Maps.C53_wakes_exactly",
    "Neco.Maps.C53_evexists",
    "Neco.Rt.C53_wakes",
    "Neco.Rt.C53_asked",
    "Neco.Rt.C53_only",
    "Neco.Rt.C53_kept_partial",
    "Neco.Rt.C53_ok_partial",
    "Neco.Rt.C53_ready",
    "Neco.Rt.C53_kept_not_general",
    "Neco.Rt.C53_hangup_not_general",
    "Neco.Rt.C53_ok_not_general"
   ],
   "note": "the two sentences of the property hold in every execution; what users infer from them is partial: a report of one direction disarms the other (refuted), a report of neither direction wakes nobody (refuted), success without a report after a stale wake-up (refuted)"
  },
  {
   "property": "C54",
   "status": "partial",
   "theorems": [
    "Neco.Gai.C54_safe",
    "Neco.Gai.C54_freed_partial",
    "Neco.Gai.C54_given",
    "Neco.Gai.C54_result",
    "Neco.Gai.C54_ends",
    "Neco.Gai.C54_counter",
    "Neco.Gai.C54_freed_not_general",
    "Neco.Gai.C54_exit_not_general"
   ],
   "note": "No use after free and no double free in any interleaving; everything is freed except for two cases: a pipe end with descriptor 0 is never closed, and addresses are lost when the coroutine is terminated between taking them and returning."
  },
  {
   "property": "C55",
   "status": "partial",
   "theorems": [
    "Neco.Rt.C55_in_use",
    "Neco.Rt.C55_taken",
    "Neco.Rt.C55_idle",
    "Neco.Rt.C55_stamps",
    "Neco.Rt.C55_lastid_partial",
    "Neco.Rt.C55_lastid_not_general",
    "Neco.Rt.C55_watch_partial",
    "Neco.Rt.C55_watch_not_general",
    "Neco.Rt.C30_partial",
    "Neco.Rt.C30_not_general"
   ],
   "note": "release and reuse of control blocks in every history; the fresh initial state is false of the code when a control block is reused (refuted for the started child, watched signals and pending cancel), proved when the reused block carries none of them"
  },
  {
   "property": "C56",
   "status": "proved",
   "theorems": [
    "Neco.Rt.C56_codes"
   ],
   "note": ""
  },
  {
   "property": "C57",
   "status": "partial",
   "theorems": [
    "Neco.Io.C57_read_partial",
    "Neco.Io.C57_write_partial",
    "Neco.Io.C57_stream_read_partial",
    "Neco.Io.C57_flush_partial",
    "Neco.Io.C57_byte_partial",
    "Neco.Io.C57_read_waits",
    "Neco.Io.C57_write_waits",
    "Neco.Io.C57_stream_read_waits",
    "Neco.Io.C57_flush_waits",
    "Neco.Io.C57_byte_not_general",
    "Neco.Io.C57_readfull_not_general",
    "Neco.Io.C57_stream_write_not_general",
    "Neco.Burst.C57_burst_partial"
   ],
   "note": "Proved for neco_read, neco_write, neco_stream_read, neco_stream_flush and read_byte with an empty buffer, for a cancelation before the call and one that comes while it waits; false for read_byte, readfull and stream_write when data is in the buffer."
  },
  {
   "property": "C58",
   "status": "proved",
   "theorems": [
    "Neco.Rt.C58_nothing_left",
    "Neco.Rt.C58_fresh",
    "Neco.Rt.C58_tame",
    "Neco.Rt.C58_never_canceled",
    "Neco.Rt.C58_timedout",
    "Neco.Rt.C58_sleep",
    "Neco.Rt.C58_suspend",
    "Neco.Rt.C58_join",
    "Neco.Rt.C58_work",
    "Neco.Rt.C58_wait",
    "Neco.Rt.C58_nothing_left_not_general",
    "Neco.Rt.C58_suspend_not_general",
    "Neco.Rt.C58_reuse_not_general"
   ],
   "note": "the _not_general theorems show that the conditions on selects and on coroutines that ended before are needed (the one on neco_cancel with a deadline: C09_timedout_not_general)"
  },
  {
   "property": "C59",
   "status": "proved",
   "theorems": [
    "Neco.Rt.C12_order",
    "Neco.Rt.C11_capacity",
    "Neco.Rt.C12_withdraw",
    "Neco.Rt.C59_recv",
    "Neco.Rt.C59_taker",
    "Neco.Rt.C59_sender_blocked",
    "Neco.Rt.C59_receiver_blocked",
    "Neco.Rt.C59_waiting_message",
    "Neco.Rt.C59_send_ok",
    "Neco.Rt.C59_select"
   ],
   "note": ""
  },
  {
   "property": "C60",
   "status": "proved",
   "theorems": [
    "Neco.Rt.C60_cond",
    "Neco.Rt.C60_lock",
    "Neco.Rt.C60_fifo",
    "Neco.Rt.C60_someone_holds",
    "Neco.Rt.C60_waitgroup",
    "Neco.Rt.C60_signal"
   ],
   "note": ""
  },
  {
   "property": "C61",
   "status": "proved",
   "theorems": [
    "Neco.Args.C61_args",
    "Neco.Args.C61_safe",
    "Neco.Args.C61_no_leak",
    "Neco.Args.C61_separate",
    "Neco.Args.C61_end",
    "Neco.Args.C61_fail",
    "Neco.Args.C61_works",
    "Neco.Args.C61_gen_untouched_partial",
    "Neco.Args.C61_gen_untouched_not_general"
   ],
   "note": "beyond the property: a failing neco_gen_start may leave the address of a freed channel in *gen"
  },
  {
   "property": "C62",
   "status": "partial",
   "theorems": [
    "Neco.Net.C62_ok",
    "Neco.Net.C62_fail",
    "Neco.Net.C62_args",
    "Neco.Net.C62_query",
    "Neco.Net.C62_cancel_async",
    "Neco.Net.C62_cancel_partial",
    "Neco.Net.C62_cancel_not_general",
    "Neco.Net.C62_ends"
   ],
   "note": "proved, except for the last clause: with the cancel type inline and more than one address a cancelation is swallowed by the attempt it interrupted (refuted); proved for the asynchronous cancel type, and for the inline one at the last address"
  },
  {
   "property": "C63",
   "status": "partial",
   "theorems": [
    "Neco.Net.C63_ok",
    "Neco.Net.C63_unix_partial",
    "Neco.Net.C63_unix_not_general",
    "Neco.Net.C63_fail",
    "Neco.Net.C63_query",
    "Neco.Net.C63_accept",
    "Neco.Net.C63_accept_told",
    "Neco.Net.C63_cancel",
    "Neco.Net.C63_accept_ends"
   ],
   "note": "proved, except that a unix path of more than 107 bytes is truncated without an error (refuted)"
  },
  {
   "property": "C64",
   "status": "partial",
   "theorems": [
    "Neco.Net.C64_ok",
    "Neco.Net.C64_in_use",
    "Neco.Net.C64_results",
    "Neco.Net.C64_told",
    "Neco.Net.C64_tells",
    "Neco.Net.C64_cancel",
    "Neco.Net.C64_error_partial",
    "Neco.Net.C64_error_not_general",
    "Neco.Net.C64_ends",
    "Neco.Net.C64_at_once"
   ],
   "note": "proved, except that after an interrupted connect the call reports an error while the socket gets connected (refuted)"
  },
  {
   "property": "C65",
   "status": "partial",
   "theorems": [
    "Neco.Pipe.C65_ok_partial",
    "Neco.Pipe.C65_fail",
    "Neco.Pipe.C65_cancelstate",
    "Neco.Pipe.C65_onward",
    "Neco.Pipe.C65_returns",
    "Neco.Pipe.C65_safe_partial",
    "Neco.Pipe.C65_clean_partial",
    "Neco.Pipe.C65_ok_cancel_not_general",
    "Neco.Pipe.C65_ok_guess_not_general",
    "Neco.Pipe.C65_safe_not_general",
    "Neco.Pipe.C65_clean_not_general",
    "Neco.Pipe.C65_errno_not_general"
   ],
   "note": "proved if nobody cancels the helper coroutine and no other process guesses the secret; a failing call is clean if the helper has ended by then and the listening socket is not descriptor 0; all conditions are shown to be needed; errno can be 0 after a failure (refuted)"
  },
  {
   "property": "C66",
   "status": "partial",
   "theorems": [
    "Neco.Rt.C66_wakes",
    "Neco.Rt.C66_during",
    "Neco.Rt.C66_awake_partial",
    "Neco.Rt.C66_next_partial",
    "Neco.Rt.C66_awake_not_general",
    "Neco.Rt.C66_next_not_general"
   ],
   "note": "proved for all operations and all executions, except for a cancelation that arrives while neco_cond_wait waits for its mutex again: it is dropped (refuted)"
  },
  {
   "property": "C67",
   "status": "partial",
   "theorems": [
    "Neco.Run.C67_no_memory",
    "Neco.Run.C67_no_library",
    "Neco.Run.C67_queue_partial",
    "Neco.Run.C67_one_queue_partial",
    "Neco.Run.C67_safe_partial",
    "Neco.Run.C67_result",
    "Neco.Run.C67_enough",
    "Neco.Run.C67_ids",
    "Neco.Run.C67_queue_not_general",
    "Neco.Run.C67_one_queue_not_general",
    "Neco.Run.C67_safe_not_general"
   ],
   "note": "memory, library, result and ids in every execution; the event queue unless descriptor 0 is given to it (refuted: it leaks and a second one is made); no use after free unless a coroutine ends while its job is in a worker thread (refuted, finding 8)"
  },
  {
   "property": "C68",
   "status": "partial",
   "theorems": [
    "Neco.Run.C68_restored",
    "Neco.Run.C68_gone",
    "Neco.Run.C68_others",
    "Neco.Run.C68_installed_partial",
    "Neco.Run.C68_safe_partial",
    "Neco.Run.C68_signal_partial",
    "Neco.Run.C68_trap_partial",
    "Neco.Run.C68_installed_not_general",
    "Neco.Run.C68_worker_not_general",
    "Neco.Run.C68_thread_not_general",
    "Neco.Run.C68_teardown_not_general",
    "Neco.Run.C68_after_not_general",
    "Neco.Run.C68_altstack_not_general"
   ],
   "note": "dispositions in every execution; the handlers are installed unless the program replaces them; what each signal then does; safety of the handlers is false of the code: SIGPIPE in a write worker, a signal in a thread without a runtime, during tear-down or after it (each refuted); proved for signals that arrive in threads with a runtime between set-up and tear-down. The alternate stack of the program is lost (refuted)"
  },
  {
   "property": "C69",
   "status": "partial",
   "theorems": [
    "Neco.Obj.C69_isolated_partial",
    "Neco.Obj.C69_admitted_partial",
    "Neco.Obj.C69_stays_partial",
    "Neco.Obj.C69_ended_partial",
    "Neco.Obj.C69_race_not_general",
    "Neco.Obj.C69_init_not_general"
   ],
   "note": "proved for programs that do not make two first calls on zero memory at the same time from two threads and do not call neco_*_init on an object of another runtime; each condition is shown to be needed"
  },
  {
   "property": "C70",
   "status": "partial",
   "theorems": [
    "Neco.Obj.C70_refused",
    "Neco.Obj.C70_admitted",
    "Neco.Obj.C70_answered",
    "Neco.Obj.C70_served",
    "Neco.Obj.C70_main",
    "Neco.Obj.C70_args_first",
    "Neco.Obj.C70_args_first_not_general",
    "Neco.Obj.C70_no_effect_partial",
    "Neco.Obj.C70_no_effect_not_general",
    "Neco.Obj.C70_cond_wait_effect"
   ],
   "note": "proved for every function and all interleavings, except that neco_cond_wait with a bad mutex has bound a condition variable in zero memory to the runtime when it returns the error (refuted); an illegal argument is always reported as such by the functions that look at their arguments first, not by neco_dial and a few others (refuted)"
  },
  {
   "property": "C71",
   "status": "partial",
   "theorems": [
    "Neco.Obj.C71_returned_partial",
    "Neco.Obj.C71_refused_partial",
    "Neco.Obj.C71_own",
    "Neco.Obj.C71_refused_not_general",
    "Neco.Obj.C71_returned_not_general"
   ],
   "note": "proved except for the refusals of neco_mutex_lock, rdlock, trylock, tryrdlock and neco_gen_yield, which do not set it, and the fast way of neco_stream_read_byte, which does not clear it (both refuted)"
  },
  {
   "property": "C72",
   "status": "partial",
   "theorems": [
    "Neco.Rt.C72_ready",
    "Neco.Rt.C72_woken_partial",
    "Neco.Rt.C72_deadline_turn",
    "Neco.Rt.C72_deadline",
    "Neco.Rt.C72_waits",
    "Neco.Rt.C72_woken_not_general"
   ],
   "note": "for every execution; a woken coroutine with a background task left behind is excluded (refuted: the completion of the task takes it off the list of the woken)"
  },
  {
   "property": "C73",
   "status": "proved",
   "theorems": [
    "Neco.Rt.C73_defined",
    "Neco.Rt.C73_kept",
    "Neco.Rt.C73_freed",
    "Neco.Rt.C73_used",
    "Neco.Rt.C73_rules_needed"
   ],
   "note": "for every execution of the integrated runtime in which the program keeps the rules of Verif/Spec/Legal.lean; breaking a rule is shown to be undefined"
  },
  {
   "property": "C74",
   "status": "proved",
   "theorems": [
    "Neco.Rt.C74_bounded",
    "Neco.Rt.C74_turn",
    "Neco.Rt.C74_rest",
    "Neco.Rt.C74_legal"
   ],
   "note": "for every execution of the integrated runtime; a full work queue is offered the same job again and again by the code, which counts as offering work"
  },
  {
   "property": "C75",
   "status": "partial",
   "theorems": [
    "Neco.Rt.C75_defined",
    "Neco.Rt.C75_ready",
    "Neco.Rt.C75_deadline",
    "Neco.Rt.C75_signal",
    "Neco.Rt.C75_work",
    "Neco.Rt.C75_sleeps_partial",
    "Neco.Rt.C75_spin_not_general"
   ],
   "note": "upper bounds proved in full; that it does sleep holds when every signal that arrived has been delivered: with a pending signal that is watched but that nobody waits for, the main loop spins, which is proved as a cycle of the state"
  },
  {
   "property": "C76",
   "status": "partial",
   "theorems": [
    "Neco.Sigq.C76_count_partial",
    "Neco.Sigq.C76_rest_partial",
    "Neco.Sigq.C76_looks_partial",
    "Neco.Sigq.C76_no_phantom",
    "Neco.Sigq.C76_pending_partial",
    "Neco.Sigq.C76_lost_not_general",
    "Neco.Sigq.C76_stuck_not_general"
   ],
   "note": "that no bit is set without a queued signal holds for every interleaving; nothing lost and nothing overlooked hold when no signal arrives in the windows named in Spec/Sigq; both fail otherwise, with witnesses"
  },
  {
   "property": "C77",
   "status": "partial",
   "theorems": [
    "Neco.Conc.C77_apart_partial",
    "Neco.Conc.C77_no_race_partial",
    "Neco.Conc.C77_queues_partial",
    "Neco.Conc.C77_results_partial",
    "Neco.Conc.C77_one_place_partial",
    "Neco.Conc.C77_none_lost_partial",
    "Neco.Conc.C77_race_not_general",
    "Neco.Conc.C77_broken_not_general"
   ],
   "note": "for every interleaving, as long as a coroutine inside neco_work is not put on a queue before its work is done; canceling it there breaks that, and then there is a data race and a queue that can never be emptied, with witnesses"
  },
  {
   "property": "C78",
   "status": "proved",
   "theorems": [
    "Neco.Llco.C78_no_fault",
    "Neco.Llco.C78_once",
    "Neco.Llco.C78_not_before",
    "Neco.Llco.C78_own_stack",
    "Neco.Llco.C78_can_go_on",
    "Neco.Llco.C78_sco",
    "Neco.Llco.C78_runs_current",
    "Neco.Llco.C78_given_back",
    "Neco.Llco.C78_unfinished",
    "Neco.Llco.C78_shared_not_general"
   ],
   "note": "for every program that uses the switching code by the rules of Verif/Spec/Llco.lean, and for the scheduler on top of it, which keeps them; that a new coroutine gets a stack that no unfinished one has is C50 and C55; the last theorem shows that this condition is needed"
  },
  {
   "property": "C79",
   "status": "proved",
   "theorems": [
    "Neco.Rt.C79_objects",
    "Neco.Rt.C79_stretch",
    "Neco.Rt.C79_settings",
    "Neco.Rt.C79_buffer"
   ],
   "note": "for every execution; that the end of background work concerns the object at which its coroutine waits is the case of finding 46: only a coroutine whose neco_work was cut short can be there"
  },
  {
   "property": "C80",
   "status": "partial",
   "theorems": [
    "Neco.Evq.C80_asked_partial",
    "Neco.Evq.C80_wakes_partial",
    "Neco.Evq.C80_oneway_partial",
    "Neco.Evq.C80_ready",
    "Neco.Evq.C80_own_partial",
    "Neco.Evq.C80_refused",
    "Neco.Evq.C80_accepted",
    "Neco.Evq.C80_alive",
    "Neco.Evq.C80_queue_partial",
    "Neco.Evq.C80_closed",
    "Neco.Evq.C80_zero",
    "Neco.Evq.C80_both",
    "Neco.Evq.C80_error",
    "Neco.Evq.C80_dup",
    "Neco.Evq.C80_reused"
   ],
   "note": "the registration of everybody asleep, and that they are woken, hold as long as nobody closes a file that is waited for, the queue does not get descriptor 0, and what is reported is what the sleepers of the descriptor wait for (enough: one direction at a time, no error without readiness); each condition is shown to be needed; that the event is one of the named file needs that descriptors are not duplicated, and not closed while waited for (both refuted otherwise)"
  },
  {
   "property": "C81",
   "status": "partial",
   "theorems": [
    "Neco.Exit.C81_once",
    "Neco.Exit.C81_order",
    "Neco.Exit.C81_own",
    "Neco.Exit.C81_all",
    "Neco.Exit.C81_final",
    "Neco.Exit.C81_why",
    "Neco.Exit.C81_gone",
    "Neco.Exit.C81_finish_partial",
    "Neco.Exit.C81_finish",
    "Neco.Exit.C81_finish_not_general",
    "Neco.Exit.C81_end"
   ],
   "note": "all clauses hold for every execution; that a handler which was called returns holds unless the coroutine is terminated again while it runs, and C81_finish_not_general shows that one single cancel does this to a handler that suspends"
  },
  {
   "property": "C82",
   "status": "partial",
   "theorems": [
    "Neco.Main.C82_status",
    "Neco.Main.C82_once",
    "Neco.Main.C82_ends",
    "Neco.Main.C82_output_partial",
    "Neco.Main.C82_output_not_general",
    "Neco.Main.C82_exit_not_general"
   ],
   "note": "the status holds for every execution; that all that was printed is written is false (C82_output_not_general): _Exit does not write what stdio has buffered; proved is that what is written is an initial part of what was printed"
  },
  {
   "property": "C83",
   "status": "partial",
   "theorems": [
    "Neco.Look.C83_direct",
    "Neco.Look.C83_dial",
    "Neco.Look.C83_errno_partial",
    "Neco.Look.C83_errno_not_general",
    "Neco.Look.C83_gone_partial",
    "Neco.Look.C83_gone_not_general",
    "Neco.Look.C83_gai_not_general",
    "Neco.Look.C83_gai_ok_not_general"
   ],
   "note": "the returned code and neco_lasterr hold for every execution, and neco_gai_lasterr after a neco_dial that fails with NECO_GAIERROR; errno can be that of another coroutine after a wait (C83_errno_not_general), which can even terminate a coroutine that nobody canceled (C83_gone_not_general); neco_getaddrinfo does not set what neco_gai_lasterr returns, and a successful lookup of neco_dial sets it to EAI_FAIL"
  },
  {
   "property": "C84",
   "status": "partial",
   "theorems": [
    "Neco.Mem.C84_paired_partial",
    "Neco.Mem.C84_paired_not_general",
    "Neco.Mem.C84_alloc",
    "Neco.Mem.C84_resize",
    "Neco.Mem.C84_resize_null",
    "Neco.Mem.C84_release",
    "Neco.Mem.C84_onward",
    "Neco.Mem.C84_panic"
   ],
   "note": "proved for the functions all memory of the library but two kinds goes through; the pairing holds when one allocator is set before the first request, and is refuted when only some of the three functions are given or they are set later (C84_paired_not_general); stacks made with malloc and the text of a stack trace use the C library whatever is set, and are not in the model"
  },
  {
   "property": "C85",
   "status": "proved",
   "theorems": [
    "Neco.Out.C85_dies",
    "Neco.Out.C85_kills",
    "Neco.Out.C85_silent",
    "Neco.Out.C85_others",
    "Neco.Out.C85_sound"
   ],
   "note": "a worker thread that finds the pipe broken after its coroutine was woken early is not modelled"
  },
  {
   "property": "C86",
   "status": "proved",
   "theorems": [
    "Neco.Rt.C86_line",
    "Neco.Rt.C86_nowhere",
    "Neco.Rt.C86_once",
    "Neco.Rt.C86_sides",
    "Neco.Rt.C86_freed"
   ],
   "note": "the last sentence for executions without undefined behaviour so far (C73: those of programs that keep the rules)"
  }
 ]
}