# Axioms used by the theorems of MANIFEST.json

Output of `#print axioms`, generated from the build.  p = `propext`, c = `Classical.choice`, q = `Quot.sound`.  No other axiom occurs.

| property | theorem | axioms |
|---|---|---|
| C01 | `Neco.Rt.C01_ids_increase` | p c q |
| C01 | `Neco.Rt.C01_running_started` | p c q |
| C01 | `Neco.Rt.C01_getid` | p c q |
| C01 | `Neco.Rt.C01_starterid` | p c q |
| C01 | `Neco.Rt.C01_lastid` | p c q |
| C01 | `Neco.Rt.C01_lastid_after_start` | p c q |
| C02 | `Neco.Sco.C02_exactly_one` | p c q |
| C02 | `Neco.Sco.C02_finished_stays` | p c q |
| C02 | `Neco.Sco.C02_no_bad_dispatch` | p c q |
| C02 | `Neco.Rt.C02_somewhere` | p c q |
| C02 | `Neco.Rt.C02_not_two` | p c q |
| C02 | `Neco.Rt.C02_over_stays` | p c q |
| C03 | `Neco.Sco.C03_due_this_round` | p c q |
| C03 | `Neco.Sco.C03_fair_partial` | p c q |
| C03 | `Neco.Sco.C03_yield_goes_last` | p c q |
| C03 | `Neco.Sco.C03_false_starvation` | p q |
| C04 | `Neco.Sco.C04_runs_at_once` | p c q |
| C04 | `Neco.Sco.C04_starter_before_yielders` | p c q |
| C05 | `Neco.Rt.C05_suspend_ok_partial` | p c q |
| C05 | `Neco.Rt.C05_suspend_ok_not_general` | p q |
| C05 | `Neco.Rt.C05_resume_event` | p c q |
| C05 | `Neco.Rt.C05_resume_result` | p c q |
| C05 | `Neco.Rt.C05_resume_wakes` | p c q |
| C06 | `Neco.Rt.C06_join_ok_partial` | p c q |
| C06 | `Neco.Rt.C06_join_ok_not_general` | p q |
| C06 | `Neco.Rt.C06_join_nowait` | p c q |
| C06 | `Neco.Rt.C06_join_self` | p c q |
| C06 | `Neco.Rt.C06_join_self_result` | p c q |
| C06 | `Neco.Rt.C06_join_wakes_partial` | p c q |
| C07 | `Neco.Sco.C07_loop_ends_iff` | p c q |
| C07 | `Neco.Rt.C07_nobody_left` | p c q |
| C07 | `Neco.Rt.C07_progress` | p c q |
| C08 | `Neco.Rt.C08_sleep_ok_partial` | p c q |
| C08 | `Neco.Rt.C08_sleep_ok_not_general` | p q |
| C08 | `Neco.Rt.C08_sleep_past` | p q |
| C08 | `Neco.Rt.C08_sleep_timedout` | p c q |
| C09 | `Neco.Rt.C09_timedout_partial` | p c q |
| C09 | `Neco.Rt.C09_timedout_not_general` | p q |
| C09 | `Neco.Rt.C09_deadline_wakes` | p c q |
| C10 | `Neco.Maps.C10_expired_in_order` | p c q |
| C10 | `Neco.Rt.C10_pass` | p c q |
| C10 | `Neco.Rt.C10_loop` | p c q |
| C11 | `Neco.Rt.C11_capacity` | p c q |
| C11 | `Neco.Ring.C11_buffer_partial` | p c q |
| C11 | `Neco.Ring.C11_room_partial` | p c q |
| C11 | `Neco.Ring.C11_outside_partial` | p c q |
| C11 | `Neco.Ring.C11_buffer_not_general` | p |
| C12 | `Neco.Rt.C12_order` | p c q |
| C12 | `Neco.Rt.C12_oldest` | p c q |
| C12 | `Neco.Rt.C12_put` | p c q |
| C12 | `Neco.Rt.C12_withdraw` | p c q |
| C12 | `Neco.Rt.C12_recv_ok_partial` | p c q |
| C12 | `Neco.Rt.C12_tryrecv` | p c q |
| C12 | `Neco.Rt.C12_recv_now` | p c q |
| C12 | `Neco.Rt.C12_send_ok_partial` | p c q |
| C12 | `Neco.Rt.C12_send_ok_not_general` | p q |
| C13 | `Neco.Rt.C13_sent_partial` | p c q |
| C13 | `Neco.Rt.C13_taker_partial` | p c q |
| C13 | `Neco.Rt.C13_tryrecv` | p c q |
| C13 | `Neco.Rt.C13_not_general` | p q |
| C14 | `Neco.Rt.C14_send_partial` | p c q |
| C14 | `Neco.Rt.C14_recv_partial` | p c q |
| C14 | `Neco.Rt.C14_not_general` | p q |
| C15 | `Neco.Rt.C15_closed_for_sending` | p c q |
| C15 | `Neco.Rt.C15_nothing_enters` | p c q |
| C15 | `Neco.Rt.C15_accepted` | p c q |
| C15 | `Neco.Rt.C15_drained_partial` | p c q |
| C15 | `Neco.Rt.C15_blocked_partial` | p c q |
| C15 | `Neco.Rt.C15_woken_partial` | p c q |
| C15 | `Neco.Rt.C15_close_wakes_partial` | p c q |
| C15 | `Neco.Rt.C15_drained_not_general` | p q |
| C15 | `Neco.Rt.C15_blocked_not_general` | p q |
| C16 | `Neco.Rt.C16_broadcast_partial` | p c q |
| C16 | `Neco.Rt.C16_counted_not_general` | p q |
| C17 | `Neco.Rt.C17_select` | p c q |
| C17 | `Neco.Rt.C17_one_partial` | p c q |
| C17 | `Neco.Rt.C17_blocks_partial` | p c q |
| C17 | `Neco.Rt.C17_error_not_general` | p q |
| C18 | `Neco.Rt.C18_case_partial` | p c q |
| C18 | `Neco.Rt.C18_case_not_general` | p q |
| C19 | `Neco.Ref.C19_usable_partial` | p c q |
| C19 | `Neco.Ref.C19_once_partial` | p c q |
| C19 | `Neco.Ref.C19_end_partial` | p c q |
| C19 | `Neco.Ref.C19_make_partial` | p c q |
| C19 | `Neco.Ref.C19_safe_partial` | p c q |
| C19 | `Neco.Ref.C19_made` | p q |
| C19 | `Neco.Ref.C19_pool` | p c q |
| C19 | `Neco.Ref.C19_safe_not_general` | p q |
| C20 | `Neco.Rt.C20_notgenerator` | p c q |
| C20 | `Neco.Rt.C20_yield_partial` | p c q |
| C20 | `Neco.Rt.C20_put` | p c q |
| C20 | `Neco.Rt.C20_values` | p c q |
| C20 | `Neco.Rt.C20_end_partial` | p c q |
| C20 | `Neco.Rt.C20_end_not_general` | p q |
| C21 | `Neco.Rt.C21_exclusive` | p c q |
| C21 | `Neco.Rt.C21_try` | p c q |
| C21 | `Neco.Rt.C21_lock_ok_partial` | p c q |
| C21 | `Neco.Rt.C21_not_general` | p q |
| C22 | `Neco.Rt.C22_ask` | p c q |
| C22 | `Neco.Rt.C22_release` | p c q |
| C22 | `Neco.Rt.C22_order` | p c q |
| C22 | `Neco.Rt.C22_in_line` | p c q |
| C22 | `Neco.Rt.C22_queue_partial` | p c q |
| C22 | `Neco.Rt.C22_fifo_partial` | p c q |
| C22 | `Neco.Rt.C22_not_general` | p q |
| C23 | `Neco.Rt.C23_held_partial` | p c q |
| C23 | `Neco.Rt.C23_line_locked` | p c q |
| C23 | `Neco.Rt.C23_unlock_free` | p c q |
| C23 | `Neco.Rt.C23_not_general` | p q |
| C24 | `Neco.Rt.C24_partial` | p c q |
| C24 | `Neco.Rt.C24_not_general` | p q |
| C25 | `Neco.Rt.C25_add` | p c q |
| C25 | `Neco.Rt.C25_done` | p c q |
| C25 | `Neco.Rt.C25_count` | p q |
| C25 | `Neco.Rt.C25_wait_partial` | p c q |
| C25 | `Neco.Rt.C25_wait_not_general` | p q |
| C26 | `Neco.Rt.C26_done_wakes` | p q |
| C26 | `Neco.Rt.C26_queue_partial` | p c q |
| C26 | `Neco.Rt.C26_blocked_partial` | p c q |
| C26 | `Neco.Rt.C26_not_general` | p q |
| C27 | `Neco.Rt.C27_signal` | p q |
| C27 | `Neco.Rt.C27_broadcast` | p q |
| C27 | `Neco.Rt.C27_order` | p q |
| C27 | `Neco.Rt.C27_in_line` | p c q |
| C27 | `Neco.Rt.C27_queue_partial` | p c q |
| C28 | `Neco.Rt.C28_partial` | p c q |
| C28 | `Neco.Rt.C28_not_general` | p q |
| C28 | `Neco.Rt.C28_self_not_general` | p q |
| C29 | `Neco.Rt.C29_partial` | p q |
| C29 | `Neco.Rt.C29_not_general` | p q |
| C30 | `Neco.Rt.C30_partial` | p c q |
| C30 | `Neco.Rt.C30_report_partial` | p c q |
| C30 | `Neco.Rt.C30_not_general` | p q |
| C30 | `Neco.Rt.C30_twice_not_general` | p q |
| C31 | `Neco.Rt.C31_enabled` | p c q |
| C31 | `Neco.Rt.C31_target` | p c q |
| C31 | `Neco.Rt.C31_notfound` | p c q |
| C31 | `Neco.Rt.C31_notfound_only` | p c q |
| C31 | `Neco.Rt.C31_wait_partial` | p c q |
| C31 | `Neco.Rt.C31_wait_not_general` | p q |
| C32 | `Neco.Rt.C32_partial` | p c q |
| C32 | `Neco.Rt.C32_all_partial` | p c q |
| C32 | `Neco.Rt.C32_when_partial` | p c q |
| C32 | `Neco.Rt.C32_not_general` | p q |
| C33 | `Neco.Rt.C33_waiting` | p c q |
| C33 | `Neco.Rt.C33_blocked` | p c q |
| C33 | `Neco.Rt.C33_answer` | p c q |
| C33 | `Neco.Rt.C33_live_partial` | p c q |
| C33 | `Neco.Rt.C33_live_not_general` | p q |
| C34 | `Neco.Rt.C34_at_most_one` | p c q |
| C34 | `Neco.Rt.C34_waiter` | p c q |
| C34 | `Neco.Rt.C34_watches_partial` | p c q |
| C34 | `Neco.Rt.C34_once` | p c q |
| C34 | `Neco.Rt.C34_result_partial` | p c q |
| C34 | `Neco.Rt.C34_told_partial` | p c q |
| C34 | `Neco.Rt.C34_no_loss_partial` | p c q |
| C34 | `Neco.Rt.C34_due_partial` | p c q |
| C34 | `Neco.Rt.C34_watches_not_general` | p q |
| C34 | `Neco.Rt.C34_due_not_general` | p c q |
| C34 | `Neco.Rt.C34_told_not_general` | p q |
| C34 | `Neco.Rt.C34_result_not_general` | p q |
| C35 | `Neco.Rt.C35_partial` | p c q |
| C35 | `Neco.Rt.C35_not_general` | p q |
| C36 | `Neco.Worker.C36_order` | p c q |
| C36 | `Neco.Worker.C36_one` | p c q |
| C36 | `Neco.Worker.C36_bound` | p c q |
| C36 | `Neco.Worker.C36_inside` | p c q |
| C36 | `Neco.Worker.C36_size` | p q |
| C36 | `Neco.Worker.C36_submit` | p c q |
| C36 | `Neco.Worker.C36_pick` | p q |
| C36 | `Neco.Worker.C36_thread` | p q |
| C36 | `Neco.Worker.C36_alive_partial` | p c q |
| C36 | `Neco.Worker.C36_done_partial` | p c q |
| C36 | `Neco.Worker.C36_close_partial` | p c q |
| C36 | `Neco.Worker.C36_lost_not_general` | none |
| C36 | `Neco.Worker.C36_stuck` | p q |
| C36 | `Neco.Worker.C36_refused_not_general` | none |
| C37 | `Neco.Io.C37_prefix_partial` | p c q |
| C37 | `Neco.Io.C37_error_partial` | p c q |
| C37 | `Neco.Io.C37_error_not_general` | p |
| C37 | `Neco.Io.C37_deadline_not_general` | p q |
| C37 | `Neco.Io.C37_prefix_not_general` | none |
| C37 | `Neco.Io.C37_ends` | p q |
| C38 | `Neco.Io.C38_read` | p q |
| C38 | `Neco.Burst.C38_burst` | p q |
| C38 | `Neco.Burst.C38_burst_cancel` | p q |
| C38 | `Neco.Burst.C38_burst_count` | p q |
| C38 | `Neco.Burst.C38_read_ends` | p q |
| C38 | `Neco.Burst.C38_burst_ends` | p q |
| C39 | `Neco.Io.C39_order` | p c q |
| C39 | `Neco.Io.C39_read` | p c q |
| C39 | `Neco.Io.C39_readfull` | p c q |
| C39 | `Neco.Io.C39_byte` | p c q |
| C39 | `Neco.Io.C39_read_ends` | p c q |
| C39 | `Neco.Io.C39_readfull_ends` | p c q |
| C39 | `Neco.Io.C39_byte_ends` | p c q |
| C40 | `Neco.Io.C40_order_partial` | p c q |
| C40 | `Neco.Io.C40_flush` | p c q |
| C40 | `Neco.Io.C40_close_partial` | p c q |
| C40 | `Neco.Io.C40_close_clean` | p q |
| C40 | `Neco.Io.C40_order_not_general` | p q |
| C40 | `Neco.Io.C40_flush_ends` | p c q |
| C40 | `Neco.Io.C40_flush_empty` | p c q |
| C40 | `Neco.Io.C40_write_ends` | p c q |
| C40 | `Neco.Io.C40_close_ends` | p c q |
| C41 | `Neco.Io.C41_bounds` | p c q |
| C41 | `Neco.Io.C41_release` | p c q |
| C41 | `Neco.Io.C41_close_partial` | p c q |
| C41 | `Neco.Io.C41_close_not_general` | p q |
| C41 | `Neco.Io.C41_make_partial` | p q |
| C41 | `Neco.Io.C41_make_not_general` | none |
| C42 | `Neco.Io.C42_unread` | p c q |
| C42 | `Neco.Io.C42_fail` | p c q |
| C43 | `Neco.Rand.C43_stream` | p q |
| C43 | `Neco.Rand.C43_split` | p q |
| C43 | `Neco.Rand.C43_rand` | p q |
| C43 | `Neco.Rand.C43_rand_length` | p q |
| C43 | `Neco.Rand.C43_setseed_replay` | p q |
| C43 | `Neco.Rand.C43_step_injective` | p |
| C43 | `Neco.Rand.C43_output_is_pcg` | p q |
| C43 | `Neco.Rand.C43_pcg` | p q |
| C44 | `Neco.Arith.C44_add_clamp` | p c q |
| C44 | `Neco.Arith.C44_timeout_range` | p c q |
| C44 | `Neco.Arith.C44_no_oversleep` | p c q |
| C44 | `Neco.Arith.C44_sleep_deadline` | p c q |
| C45 | `Neco.Err.C45_roundtrip` | none |
| C45 | `Neco.Err.C45_roundtrip_sys` | p q |
| C45 | `Neco.Err.C45_fromSys_range` | p |
| C45 | `Neco.Err.C45_lasterr` | p q |
| C45 | `Neco.Err.C45_guard_effects` | p q |
| C45 | `Neco.Err.C45_names_injective` | p q |
| C45 | `Neco.Err.C45_names_partial` | none |
| C45 | `Neco.Err.C45_names_false` | p q |
| C45 | `Neco.Text.C45_text` | p c q |
| C45 | `Neco.Text.C45_text_injective` | p c q |
| C45 | `Neco.Text.C45_text_fits` | p c q |
| C45 | `Neco.Text.C45_text_not_general` | p c q |
| C46 | `Neco.Addr.C46_no_out_of_bounds` | p c q |
| C46 | `Neco.Addr.C46_reject_iff` | p c q |
| C46 | `Neco.Addr.C46_split_last_colon` | p c q |
| C47 | `Neco.Aat.C47_contents` | p c q |
| C47 | `Neco.Aat.C47_reports` | p c q |
| C47 | `Neco.Aat.C47_queries` | p c q |
| C47 | `Neco.Aat.C47_spec_insert_mem` | p |
| C48 | `Neco.Aat.C48_balanced` | p c q |
| C49 | `Neco.Maps.C49_lookup` | p c q |
| C49 | `Neco.Maps.C49_lookup_mix13` | p c q |
| C49 | `Neco.Maps.C49_shard_in_range` | p q |
| C49 | `Neco.Maps.C49_paused_delete` | p c q |
| C49 | `Neco.Maps.C49_paused_count` | p c q |
| C50 | `Neco.Stack.C50_size` | p c q |
| C50 | `Neco.Stack.C50_disjoint` | p c q |
| C50 | `Neco.Stack.C50_gap` | p c q |
| C50 | `Neco.Stack.C50_mapped` | p c q |
| C50 | `Neco.Stack.C50_bookkeeping` | p c q |
| C50 | `Neco.Stack.C50_get` | p q |
| C50 | `Neco.Stack.C50_drop` | p c q |
| C50 | `Neco.Stack.C50_guards` | p c q |
| C50 | `Neco.Stack.C50_overflow_not_general` | p q |
| C51 | `Neco.Stack.C51_once` | p c q |
| C51 | `Neco.Stack.C51_in_use` | p c q |
| C51 | `Neco.Stack.C51_exactly` | p c q |
| C51 | `Neco.Stack.C51_get` | p c q |
| C51 | `Neco.Stack.C51_free` | p c q |
| C51 | `Neco.Stack.C51_defined` | p c q |
| C51 | `Neco.Stack.C51_destroy` | p c q |
| C52 | `Neco.Colist.C52_queues` | p c q |
| C52 | `Neco.Colist.C52_step` | p c q |
| C52 | `Neco.Colist.C52_determined` | none |
| C53 | `Neco.Maps.C53_wakes_exactly` | p c q |
| C53 | `Neco.Maps.C53_evexists` | p c q |
| C53 | `Neco.Rt.C53_wakes` | p c q |
| C53 | `Neco.Rt.C53_asked` | p c q |
| C53 | `Neco.Rt.C53_only` | p c q |
| C53 | `Neco.Rt.C53_kept_partial` | p c q |
| C53 | `Neco.Rt.C53_ok_partial` | p c q |
| C53 | `Neco.Rt.C53_ready` | p c q |
| C53 | `Neco.Rt.C53_kept_not_general` | p q |
| C53 | `Neco.Rt.C53_hangup_not_general` | p q |
| C53 | `Neco.Rt.C53_ok_not_general` | p q |
| C54 | `Neco.Gai.C54_safe` | p q |
| C54 | `Neco.Gai.C54_freed_partial` | p q |
| C54 | `Neco.Gai.C54_given` | p q |
| C54 | `Neco.Gai.C54_result` | p q |
| C54 | `Neco.Gai.C54_ends` | p q |
| C54 | `Neco.Gai.C54_counter` | p c q |
| C54 | `Neco.Gai.C54_freed_not_general` | p |
| C54 | `Neco.Gai.C54_exit_not_general` | p |
| C55 | `Neco.Rt.C55_in_use` | p c q |
| C55 | `Neco.Rt.C55_taken` | p c q |
| C55 | `Neco.Rt.C55_idle` | p c q |
| C55 | `Neco.Rt.C55_stamps` | p c q |
| C55 | `Neco.Rt.C55_lastid_partial` | p c q |
| C55 | `Neco.Rt.C55_lastid_not_general` | p q |
| C55 | `Neco.Rt.C55_watch_partial` | p c q |
| C55 | `Neco.Rt.C55_watch_not_general` | p c q |
| C55 | `Neco.Rt.C30_partial` | p c q |
| C55 | `Neco.Rt.C30_not_general` | p q |
| C56 | `Neco.Rt.C56_codes` | p c q |
| C57 | `Neco.Io.C57_read_partial` | p q |
| C57 | `Neco.Io.C57_write_partial` | p q |
| C57 | `Neco.Io.C57_stream_read_partial` | p q |
| C57 | `Neco.Io.C57_flush_partial` | p q |
| C57 | `Neco.Io.C57_byte_partial` | p q |
| C57 | `Neco.Io.C57_read_waits` | p |
| C57 | `Neco.Io.C57_write_waits` | p q |
| C57 | `Neco.Io.C57_stream_read_waits` | p |
| C57 | `Neco.Io.C57_flush_waits` | p q |
| C57 | `Neco.Io.C57_byte_not_general` | p q |
| C57 | `Neco.Io.C57_readfull_not_general` | p q |
| C57 | `Neco.Io.C57_stream_write_not_general` | p q |
| C57 | `Neco.Burst.C57_burst_partial` | p q |
| C58 | `Neco.Rt.C58_nothing_left` | p c q |
| C58 | `Neco.Rt.C58_fresh` | p c q |
| C58 | `Neco.Rt.C58_tame` | p c q |
| C58 | `Neco.Rt.C58_never_canceled` | p c q |
| C58 | `Neco.Rt.C58_timedout` | p c q |
| C58 | `Neco.Rt.C58_sleep` | p c q |
| C58 | `Neco.Rt.C58_suspend` | p c q |
| C58 | `Neco.Rt.C58_join` | p c q |
| C58 | `Neco.Rt.C58_work` | p c q |
| C58 | `Neco.Rt.C58_wait` | p c q |
| C58 | `Neco.Rt.C58_nothing_left_not_general` | p q |
| C58 | `Neco.Rt.C58_suspend_not_general` | p q |
| C58 | `Neco.Rt.C58_reuse_not_general` | p q |
| C59 | `Neco.Rt.C12_order` | p c q |
| C59 | `Neco.Rt.C11_capacity` | p c q |
| C59 | `Neco.Rt.C12_withdraw` | p c q |
| C59 | `Neco.Rt.C59_recv` | p c q |
| C59 | `Neco.Rt.C59_taker` | p c q |
| C59 | `Neco.Rt.C59_sender_blocked` | p c q |
| C59 | `Neco.Rt.C59_receiver_blocked` | p c q |
| C59 | `Neco.Rt.C59_waiting_message` | p c q |
| C59 | `Neco.Rt.C59_send_ok` | p c q |
| C59 | `Neco.Rt.C59_select` | p c q |
| C60 | `Neco.Rt.C60_cond` | p c q |
| C60 | `Neco.Rt.C60_lock` | p c q |
| C60 | `Neco.Rt.C60_fifo` | p c q |
| C60 | `Neco.Rt.C60_someone_holds` | p c q |
| C60 | `Neco.Rt.C60_waitgroup` | p c q |
| C60 | `Neco.Rt.C60_signal` | p c q |
| C61 | `Neco.Args.C61_args` | p c q |
| C61 | `Neco.Args.C61_safe` | p c q |
| C61 | `Neco.Args.C61_no_leak` | p c q |
| C61 | `Neco.Args.C61_separate` | p c q |
| C61 | `Neco.Args.C61_end` | p c q |
| C61 | `Neco.Args.C61_fail` | p c q |
| C61 | `Neco.Args.C61_works` | p q |
| C61 | `Neco.Args.C61_gen_untouched_partial` | p q |
| C61 | `Neco.Args.C61_gen_untouched_not_general` | p q |
| C62 | `Neco.Net.C62_ok` | p c q |
| C62 | `Neco.Net.C62_fail` | p c q |
| C62 | `Neco.Net.C62_args` | p q |
| C62 | `Neco.Net.C62_query` | p c q |
| C62 | `Neco.Net.C62_cancel_async` | p c q |
| C62 | `Neco.Net.C62_cancel_partial` | p c q |
| C62 | `Neco.Net.C62_cancel_not_general` | p q |
| C62 | `Neco.Net.C62_ends` | p c q |
| C63 | `Neco.Net.C63_ok` | p c q |
| C63 | `Neco.Net.C63_unix_partial` | p c q |
| C63 | `Neco.Net.C63_unix_not_general` | p q |
| C63 | `Neco.Net.C63_fail` | p c q |
| C63 | `Neco.Net.C63_query` | p c q |
| C63 | `Neco.Net.C63_accept` | p c q |
| C63 | `Neco.Net.C63_accept_told` | p c q |
| C63 | `Neco.Net.C63_cancel` | p q |
| C63 | `Neco.Net.C63_accept_ends` | p c q |
| C64 | `Neco.Net.C64_ok` | p q |
| C64 | `Neco.Net.C64_in_use` | p q |
| C64 | `Neco.Net.C64_results` | p q |
| C64 | `Neco.Net.C64_told` | p c q |
| C64 | `Neco.Net.C64_tells` | p q |
| C64 | `Neco.Net.C64_cancel` | p q |
| C64 | `Neco.Net.C64_error_partial` | p q |
| C64 | `Neco.Net.C64_error_not_general` | p |
| C64 | `Neco.Net.C64_ends` | p q |
| C64 | `Neco.Net.C64_at_once` | p q |
| C65 | `Neco.Pipe.C65_ok_partial` | p c q |
| C65 | `Neco.Pipe.C65_fail` | p c q |
| C65 | `Neco.Pipe.C65_cancelstate` | p c q |
| C65 | `Neco.Pipe.C65_onward` | p q |
| C65 | `Neco.Pipe.C65_returns` | p c q |
| C65 | `Neco.Pipe.C65_safe_partial` | p c q |
| C65 | `Neco.Pipe.C65_clean_partial` | p c q |
| C65 | `Neco.Pipe.C65_ok_cancel_not_general` | p q |
| C65 | `Neco.Pipe.C65_ok_guess_not_general` | p |
| C65 | `Neco.Pipe.C65_safe_not_general` | p |
| C65 | `Neco.Pipe.C65_clean_not_general` | p q |
| C65 | `Neco.Pipe.C65_errno_not_general` | p q |
| C66 | `Neco.Rt.C66_wakes` | p c q |
| C66 | `Neco.Rt.C66_during` | p c q |
| C66 | `Neco.Rt.C66_awake_partial` | p c q |
| C66 | `Neco.Rt.C66_next_partial` | p c q |
| C66 | `Neco.Rt.C66_awake_not_general` | p q |
| C66 | `Neco.Rt.C66_next_not_general` | p q |
| C67 | `Neco.Run.C67_no_memory` | p c q |
| C67 | `Neco.Run.C67_no_library` | p c q |
| C67 | `Neco.Run.C67_queue_partial` | p c q |
| C67 | `Neco.Run.C67_one_queue_partial` | p c q |
| C67 | `Neco.Run.C67_safe_partial` | p c q |
| C67 | `Neco.Run.C67_result` | p c q |
| C67 | `Neco.Run.C67_enough` | p c q |
| C67 | `Neco.Run.C67_ids` | p c q |
| C67 | `Neco.Run.C67_queue_not_general` | p q |
| C67 | `Neco.Run.C67_one_queue_not_general` | p q |
| C67 | `Neco.Run.C67_safe_not_general` | p q |
| C68 | `Neco.Run.C68_restored` | p c q |
| C68 | `Neco.Run.C68_gone` | p c q |
| C68 | `Neco.Run.C68_others` | p c q |
| C68 | `Neco.Run.C68_installed_partial` | p c q |
| C68 | `Neco.Run.C68_safe_partial` | p c q |
| C68 | `Neco.Run.C68_signal_partial` | p c q |
| C68 | `Neco.Run.C68_trap_partial` | p c q |
| C68 | `Neco.Run.C68_installed_not_general` | p q |
| C68 | `Neco.Run.C68_worker_not_general` | p q |
| C68 | `Neco.Run.C68_thread_not_general` | p q |
| C68 | `Neco.Run.C68_teardown_not_general` | p q |
| C68 | `Neco.Run.C68_after_not_general` | p q |
| C68 | `Neco.Run.C68_altstack_not_general` | p q |
| C69 | `Neco.Obj.C69_isolated_partial` | p c q |
| C69 | `Neco.Obj.C69_admitted_partial` | p c q |
| C69 | `Neco.Obj.C69_stays_partial` | p c q |
| C69 | `Neco.Obj.C69_ended_partial` | p c q |
| C69 | `Neco.Obj.C69_race_not_general` | p q |
| C69 | `Neco.Obj.C69_init_not_general` | p q |
| C70 | `Neco.Obj.C70_refused` | p c q |
| C70 | `Neco.Obj.C70_admitted` | p c q |
| C70 | `Neco.Obj.C70_answered` | p q |
| C70 | `Neco.Obj.C70_served` | p c q |
| C70 | `Neco.Obj.C70_main` | p c q |
| C70 | `Neco.Obj.C70_args_first` | p q |
| C70 | `Neco.Obj.C70_args_first_not_general` | p q |
| C70 | `Neco.Obj.C70_no_effect_partial` | p q |
| C70 | `Neco.Obj.C70_no_effect_not_general` | p q |
| C70 | `Neco.Obj.C70_cond_wait_effect` | p q |
| C71 | `Neco.Obj.C71_returned_partial` | p q |
| C71 | `Neco.Obj.C71_refused_partial` | p c q |
| C71 | `Neco.Obj.C71_own` | p q |
| C71 | `Neco.Obj.C71_refused_not_general` | p q |
| C71 | `Neco.Obj.C71_returned_not_general` | p q |
| C72 | `Neco.Rt.C72_ready` | p c q |
| C72 | `Neco.Rt.C72_woken_partial` | p c q |
| C72 | `Neco.Rt.C72_deadline_turn` | p c q |
| C72 | `Neco.Rt.C72_deadline` | p c q |
| C72 | `Neco.Rt.C72_waits` | p c q |
| C72 | `Neco.Rt.C72_woken_not_general` | p q |
| C73 | `Neco.Rt.C73_defined` | p c q |
| C73 | `Neco.Rt.C73_kept` | p c q |
| C73 | `Neco.Rt.C73_freed` | p c q |
| C73 | `Neco.Rt.C73_used` | p c q |
| C73 | `Neco.Rt.C73_rules_needed` | p q |
| C74 | `Neco.Rt.C74_bounded` | p c q |
| C74 | `Neco.Rt.C74_turn` | p c q |
| C74 | `Neco.Rt.C74_rest` | p c q |
| C74 | `Neco.Rt.C74_legal` | p c q |
| C75 | `Neco.Rt.C75_defined` | p c q |
| C75 | `Neco.Rt.C75_ready` | p c q |
| C75 | `Neco.Rt.C75_deadline` | p c q |
| C75 | `Neco.Rt.C75_signal` | p c q |
| C75 | `Neco.Rt.C75_work` | p c q |
| C75 | `Neco.Rt.C75_sleeps_partial` | p c q |
| C75 | `Neco.Rt.C75_spin_not_general` | p c q |
| C76 | `Neco.Sigq.C76_count_partial` | p c q |
| C76 | `Neco.Sigq.C76_rest_partial` | p c q |
| C76 | `Neco.Sigq.C76_looks_partial` | p q |
| C76 | `Neco.Sigq.C76_no_phantom` | p c q |
| C76 | `Neco.Sigq.C76_pending_partial` | p c q |
| C76 | `Neco.Sigq.C76_lost_not_general` | p q |
| C76 | `Neco.Sigq.C76_stuck_not_general` | p q |
| C77 | `Neco.Conc.C77_apart_partial` | p c q |
| C77 | `Neco.Conc.C77_no_race_partial` | p c q |
| C77 | `Neco.Conc.C77_queues_partial` | p c q |
| C77 | `Neco.Conc.C77_results_partial` | p c q |
| C77 | `Neco.Conc.C77_one_place_partial` | p c q |
| C77 | `Neco.Conc.C77_none_lost_partial` | p c q |
| C77 | `Neco.Conc.C77_race_not_general` | p q |
| C77 | `Neco.Conc.C77_broken_not_general` | p q |
| C78 | `Neco.Llco.C78_no_fault` | p c q |
| C78 | `Neco.Llco.C78_once` | p c q |
| C78 | `Neco.Llco.C78_not_before` | p c q |
| C78 | `Neco.Llco.C78_own_stack` | p c q |
| C78 | `Neco.Llco.C78_can_go_on` | p c q |
| C78 | `Neco.Llco.C78_sco` | p c q |
| C78 | `Neco.Llco.C78_runs_current` | p c q |
| C78 | `Neco.Llco.C78_given_back` | p c q |
| C78 | `Neco.Llco.C78_unfinished` | p c q |
| C78 | `Neco.Llco.C78_shared_not_general` | p |
| C79 | `Neco.Rt.C79_objects` | p c q |
| C79 | `Neco.Rt.C79_stretch` | p c q |
| C79 | `Neco.Rt.C79_settings` | p c q |
| C79 | `Neco.Rt.C79_buffer` | p c q |
| C80 | `Neco.Evq.C80_asked_partial` | p c q |
| C80 | `Neco.Evq.C80_wakes_partial` | p c q |
| C80 | `Neco.Evq.C80_oneway_partial` | p c q |
| C80 | `Neco.Evq.C80_ready` | p q |
| C80 | `Neco.Evq.C80_own_partial` | p q |
| C80 | `Neco.Evq.C80_refused` | p q |
| C80 | `Neco.Evq.C80_accepted` | p q |
| C80 | `Neco.Evq.C80_alive` | p q |
| C80 | `Neco.Evq.C80_queue_partial` | p q |
| C80 | `Neco.Evq.C80_closed` | p q |
| C80 | `Neco.Evq.C80_zero` | p q |
| C80 | `Neco.Evq.C80_both` | p c q |
| C80 | `Neco.Evq.C80_error` | p q |
| C80 | `Neco.Evq.C80_dup` | p q |
| C80 | `Neco.Evq.C80_reused` | p q |
| C81 | `Neco.Exit.C81_once` | p c q |
| C81 | `Neco.Exit.C81_order` | p c q |
| C81 | `Neco.Exit.C81_own` | p c q |
| C81 | `Neco.Exit.C81_all` | p c q |
| C81 | `Neco.Exit.C81_final` | p c q |
| C81 | `Neco.Exit.C81_why` | p c q |
| C81 | `Neco.Exit.C81_gone` | p c q |
| C81 | `Neco.Exit.C81_finish_partial` | p c q |
| C81 | `Neco.Exit.C81_finish` | p c q |
| C81 | `Neco.Exit.C81_finish_not_general` | p q |
| C81 | `Neco.Exit.C81_end` | p q |
| C82 | `Neco.Main.C82_status` | p c q |
| C82 | `Neco.Main.C82_once` | p c q |
| C82 | `Neco.Main.C82_ends` | p c q |
| C82 | `Neco.Main.C82_output_partial` | p c q |
| C82 | `Neco.Main.C82_output_not_general` | p q |
| C82 | `Neco.Main.C82_exit_not_general` | p q |
| C83 | `Neco.Look.C83_direct` | p q |
| C83 | `Neco.Look.C83_dial` | p q |
| C83 | `Neco.Look.C83_errno_partial` | p q |
| C83 | `Neco.Look.C83_errno_not_general` | p q |
| C83 | `Neco.Look.C83_gone_partial` | p q |
| C83 | `Neco.Look.C83_gone_not_general` | p q |
| C83 | `Neco.Look.C83_gai_not_general` | p q |
| C83 | `Neco.Look.C83_gai_ok_not_general` | p q |
| C84 | `Neco.Mem.C84_paired_partial` | p c q |
| C84 | `Neco.Mem.C84_paired_not_general` | p q |
| C84 | `Neco.Mem.C84_alloc` | p c q |
| C84 | `Neco.Mem.C84_resize` | p c q |
| C84 | `Neco.Mem.C84_resize_null` | p c q |
| C84 | `Neco.Mem.C84_release` | p c q |
| C84 | `Neco.Mem.C84_onward` | p c q |
| C84 | `Neco.Mem.C84_panic` | p c q |
| C85 | `Neco.Out.C85_dies` | p c q |
| C85 | `Neco.Out.C85_kills` | p q |
| C85 | `Neco.Out.C85_silent` | p |
| C85 | `Neco.Out.C85_others` | p |
| C85 | `Neco.Out.C85_sound` | p |
| C86 | `Neco.Rt.C86_line` | p c q |
| C86 | `Neco.Rt.C86_nowhere` | p c q |
| C86 | `Neco.Rt.C86_once` | p c q |
| C86 | `Neco.Rt.C86_sides` | p c q |
| C86 | `Neco.Rt.C86_freed` | p c q |
