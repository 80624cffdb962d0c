{
 "claims": [
  {
   "property": "C01",
   "status": "proved",
   "theorems": [
    "OM.Props.C01_membership_is_conjunction",
    "OM.Props.C01_nan_never_matches"
   ],
   "note": "unknown enum bounds impose no range (argument must still exist)"
  },
  {
   "property": "C02",
   "status": "partial",
   "theorems": [
    "OM.Props.C02_creation_time_refuted",
    "OM.Props.C02_creation_time_partial",
    "OM.Props.C02_sensible_filter_excludes_all",
    "OM.Props.C02_open_bound_partial",
    "OM.Props.C02_open_bound_refuted"
   ],
   "note": "the code's comparisons are inverted; refuted, exact admitted set proved. a bound left out counts as 1970"
  },
  {
   "property": "C03",
   "status": "proved",
   "theorems": [
    "OM.Props.C03_filtering_never_panics",
    "OM.Props.C03_cached_tickets_never_panic"
   ],
   "note": "Evaluation never panics on tickets with attributes; in every execution of the system every ticket of every snapshot of every instance has them."
  },
  {
   "property": "C04",
   "status": "proved",
   "theorems": [
    "OM.Props.C04_filters_narrow",
    "OM.Props.C04_filter_order_irrelevant",
    "OM.Props.C04_ticket_data_order_irrelevant"
   ],
   "note": ""
  },
  {
   "property": "C05",
   "status": "proved",
   "theorems": [
    "OM.Props.C05_validation_exact",
    "OM.Props.C05_refused_pool_does_not_disturb",
    "OM.Props.C05_reason"
   ],
   "note": ""
  },
  {
   "property": "C06",
   "status": "proved",
   "theorems": [
    "OM.Props.C06_stored_content",
    "OM.Props.C06_text_is_stored"
   ],
   "note": "Content after replication, for any lawful codec; OM.Wire.codec is a concrete lawful one."
  },
  {
   "property": "C07",
   "status": "proved",
   "theorems": [
    "OM.Props.C07_expiration_clamped"
   ],
   "note": ""
  },
  {
   "property": "C08",
   "status": "partial",
   "theorems": [
    "OM.Props.C08_ttl_partial",
    "OM.Props.C08_ttl_refuted",
    "OM.Props.C08_ttl_after_creation"
   ],
   "note": "False for creation times in the future; proved otherwise."
  },
  {
   "property": "C09",
   "status": "proved",
   "theorems": [
    "OM.Props.C09_nil_refused",
    "OM.Props.C09_every_ticket_accepted",
    "OM.Props.C119_missing"
   ],
   "note": ""
  },
  {
   "property": "C10",
   "status": "partial",
   "theorems": [
    "OM.Props.C10_memory_id_is_stored_id",
    "OM.Props.C10_redis_id_is_stored_id_partial",
    "OM.Props.C10_redis_refuted",
    "OM.Props.C10_shift_exactly",
    "OM.Props.C10_own_id_exactly"
   ],
   "note": "Proved for the memory store; false for Redis when an invalid update precedes in the batch, proved otherwise. When all commands succeed, the id given is exactly known."
  },
  {
   "property": "C11",
   "status": "partial",
   "theorems": [
    "OM.Props.C11_success_means_stored_partial",
    "OM.Props.C11_nonempty_id_exists_partial",
    "OM.Props.C11_success_means_stored_refuted",
    "OM.Props.C10_shift_exactly"
   ],
   "note": "False when the Redis connection fails."
  },
  {
   "property": "C12",
   "status": "proved",
   "theorems": [
    "OM.Props.C12_ids_unique",
    "OM.Props.C12_ticket_keys_unique"
   ],
   "note": "memory replicator, clock that does not step back"
  },
  {
   "property": "C13",
   "status": "proved",
   "theorems": [
    "OM.Props.C13_ids_increase_and_parse"
   ],
   "note": "memory replicator"
  },
  {
   "property": "C14",
   "status": "proved",
   "theorems": [
    "OM.Props.C14_batch_size"
   ],
   "note": ""
  },
  {
   "property": "C15",
   "status": "proved",
   "theorems": [
    "OM.Props.C15_valid_ids_sent",
    "OM.Props.C15_partition"
   ],
   "note": ""
  },
  {
   "property": "C16",
   "status": "partial",
   "theorems": [
    "OM.Props.C16_well_formed_sent_partial",
    "OM.Props.C16_malformed_refused_refuted",
    "OM.Props.C16_ok_means_acted_refuted",
    "OM.Props.C16_exactly"
   ],
   "note": "False: unanchored pattern; ids without a dash are dropped silently."
  },
  {
   "property": "C17",
   "status": "partial",
   "theorems": [
    "OM.Props.C17_ok_iff_no_error_partial",
    "OM.Props.C17_error_is_failure",
    "OM.Props.C17_ok_iff_no_error_refuted",
    "OM.Props.C17_exact_partial"
   ],
   "note": "Proved for error texts in UTF-8 (and, always, that an error means a failure); a text from Redis that is not UTF-8 makes WithDetails fail, and the call says OK. Exactly: OK means no failure, or one that would be told is told in bytes that are no text."
  },
  {
   "property": "C18",
   "status": "partial",
   "theorems": [
    "OM.Props.C18_details_name_failures_partial",
    "OM.Props.C18_details_name_failures_refuted",
    "OM.Props.C18_refused_update_partial",
    "OM.Props.C18_refused_update_refuted",
    "OM.Props.C18_descriptions",
    "OM.Props.C18_redis_details"
   ],
   "note": "False with Redis, whose error responses carry no id. What a caller does learn is exact: one detail, naming in its description the last refused ticket."
  },
  {
   "property": "C19",
   "status": "proved",
   "theorems": [
    "OM.Props.C19_own_results_in_order",
    "OM.Props.C19_one_response_each"
   ],
   "note": ""
  },
  {
   "property": "C20",
   "status": "proved",
   "theorems": [
    "OM.Props.C20_batching",
    "OM.Props.C20_timeout_flushes",
    "OM.Props.C20_batches_of_the_process"
   ],
   "note": ""
  },
  {
   "property": "C21",
   "status": "proved",
   "theorems": [
    "OM.Props.C21_round_trip"
   ],
   "note": ""
  },
  {
   "property": "C22",
   "status": "proved",
   "theorems": [
    "OM.Props.C22_polling",
    "OM.Props.C22_stream_append_only"
   ],
   "note": ""
  },
  {
   "property": "C23",
   "status": "proved",
   "theorems": [
    "OM.Props.C23_batch_boundaries_irrelevant",
    "OM.Props.C23_instances_converge",
    "OM.Props.C23_expiration_only_drops"
   ],
   "note": ""
  },
  {
   "property": "C24",
   "status": "proved",
   "theorems": [
    "OM.Props.C24_life_cycle"
   ],
   "note": ""
  },
  {
   "property": "C25",
   "status": "partial",
   "theorems": [
    "OM.Props.C25_race_refuted",
    "OM.Props.C25_not_before_activation_partial",
    "OM.Props.C25_only_race_partial"
   ],
   "note": "a snapshot overlapping the creation can return the new ticket"
  },
  {
   "property": "C26",
   "status": "proved",
   "theorems": [
    "OM.Props.C26_deactivated_stays_out"
   ],
   "note": ""
  },
  {
   "property": "C27",
   "status": "proved",
   "theorems": [
    "OM.Props.C27_active_stays_in",
    "OM.Props.C27_activated_is_served"
   ],
   "note": ""
  },
  {
   "property": "C28",
   "status": "proved",
   "theorems": [
    "OM.Props.C28_returned_is_explainable",
    "OM.Props.C28_active_throughout_is_returned"
   ],
   "note": ""
  },
  {
   "property": "C29",
   "status": "proved",
   "theorems": [
    "OM.Props.C29_expiration_never_reactivates",
    "OM.Props.C29_candidates_shrink"
   ],
   "note": ""
  },
  {
   "property": "C30",
   "status": "proved",
   "theorems": [
    "OM.Props.C30_nothing_expired_remains"
   ],
   "note": ""
  },
  {
   "property": "C31",
   "status": "proved",
   "theorems": [
    "OM.Props.C31_removes_nothing_else"
   ],
   "note": ""
  },
  {
   "property": "C32",
   "status": "partial",
   "theorems": [
    "OM.Props.C32_redis_ids_age_out_partial",
    "OM.Props.C32_redis_inactive_never_ages",
    "OM.Props.C32_redis_ids_age_out_refuted"
   ],
   "note": "False: milliseconds are read as seconds."
  },
  {
   "property": "C33",
   "status": "partial",
   "theorems": [
    "OM.Props.C33_stream_trimmed_partial",
    "OM.Props.C33_stream_unbounded",
    "OM.Props.C33_stream_trimmed_refuted"
   ],
   "note": "False: MINID is given in seconds."
  },
  {
   "property": "C34",
   "status": "partial",
   "theorems": [
    "OM.Props.C34_unknown_ignored_partial",
    "OM.Props.C34_short_assign_panics",
    "OM.Props.C34_unknown_ignored_refuted"
   ],
   "note": "False: an unknown entry becomes a ticket with the empty id."
  },
  {
   "property": "C35",
   "status": "partial",
   "theorems": [
    "OM.Props.C35_keeps_running_partial",
    "OM.Props.C35_keeps_running_refuted"
   ],
   "note": "False: connections are never returned to the pool."
  },
  {
   "property": "C36",
   "status": "partial",
   "theorems": [
    "OM.Props.C36_expired_in_pool_refuted",
    "OM.Props.C36_expired_in_pool_partial"
   ],
   "note": "expired tickets stay candidates until the next cycle"
  },
  {
   "property": "C37",
   "status": "partial",
   "theorems": [
    "OM.Props.C37_starvation_refuted",
    "OM.Props.C37_cycle_after_drain_partial",
    "OM.Props.C37_exactly"
   ],
   "note": "the 500 ms timer is recreated every iteration"
  },
  {
   "property": "C38",
   "status": "proved",
   "theorems": [
    "OM.Props.C38_mmf_receives_exactly_the_matching_tickets",
    "OM.Props.C38_participants_meet_the_filters",
    "OM.Props.C38_each_once"
   ],
   "note": "Received messages may permute map entries. Creation-time filters: see C02."
  },
  {
   "property": "C39",
   "status": "proved",
   "theorems": [
    "OM.Props.C39_framing",
    "OM.Props.C39_name_and_extensions"
   ],
   "note": ""
  },
  {
   "property": "C40",
   "status": "proved",
   "theorems": [
    "OM.Props.C40_budget"
   ],
   "note": ""
  },
  {
   "property": "C41",
   "status": "partial",
   "theorems": [
    "OM.Props.C41_fits_grpc_limit_partial",
    "OM.Props.C41_fits_grpc_limit_refuted",
    "OM.Props.C41_bound",
    "OM.Props.C41_few_partial"
   ],
   "note": "False: framing is not counted; proved for tickets of at least 64 bytes and a bound on pool names. Also for chunks of at most 25,000 tickets of any size; and how far any chunk can exceed the budget."
  },
  {
   "property": "C42",
   "status": "partial",
   "theorems": [
    "OM.Props.C42_profile_data_partial",
    "OM.Props.C42_pool_data_refuted",
    "OM.Props.C42_exactly"
   ],
   "note": "False: pool name, filters and extensions are dropped."
  },
  {
   "property": "C43",
   "status": "proved",
   "theorems": [
    "OM.Props.C43_faithful_at_most_once",
    "OM.Props.C43_sends_do_not_overlap"
   ],
   "note": "all schedules and MMF results"
  },
  {
   "property": "C44",
   "status": "proved",
   "theorems": [
    "OM.Props.C44_deactivated_before_returned"
   ],
   "note": "queued and then answered, in log order"
  },
  {
   "property": "C45",
   "status": "partial",
   "theorems": [
    "OM.Props.C45_all_delivered_refuted",
    "OM.Props.C45_all_delivered_or_in_flight_partial",
    "OM.Props.C45_loss_exactly"
   ],
   "note": "false of the code: the handler does not wait for the fan-in goroutine; all but the one match in flight are delivered. The exact condition for a loss is proved."
  },
  {
   "property": "C46",
   "status": "partial",
   "theorems": [
    "OM.Props.C46_empty_match_refuted",
    "OM.Props.C46_failing_stream_refuted",
    "OM.Props.C46_no_crash_partial",
    "OM.Props.C46_crash_exactly"
   ],
   "note": "false of the code: match without tickets, stream failing after a match; the exact condition is proved"
  },
  {
   "property": "C47",
   "status": "partial",
   "theorems": [
    "OM.Props.C47_wait_refuted",
    "OM.Props.C47_one_check_before_return_partial",
    "OM.Props.C47_wait_has_no_effect"
   ],
   "note": "false of the code: deactivationCheck looks once. the option has no effect on what is sent"
  },
  {
   "property": "C48",
   "status": "proved",
   "theorems": [
    "OM.Props.C48_matched_tickets_leave_pools"
   ],
   "note": ""
  },
  {
   "property": "C49",
   "status": "partial",
   "theorems": [
    "OM.Props.C49_failures_reported_refuted",
    "OM.Props.C49_only_invalid_requests_refused_partial",
    "OM.Props.C49_failures_look_like_no_matches"
   ],
   "note": "false of the code: errors of MMF goroutines are dropped. a failure before the first match cannot be told from success"
  },
  {
   "property": "C50",
   "status": "proved",
   "theorems": [
    "OM.Props.C50_pairs"
   ],
   "note": "Tickets are assumed non-nil (the loop reads ticket.Id); failing sends included."
  },
  {
   "property": "C51",
   "status": "partial",
   "theorems": [
    "OM.Props.C51_no_duplicates_refuted",
    "OM.Props.C51_disjoint_pools_partial",
    "OM.Props.C51_exactly"
   ],
   "note": "Violated: a ticket in two pools is matched with itself. Holds when no ticket id occurs in two pools."
  },
  {
   "property": "C52",
   "status": "proved",
   "theorems": [
    "OM.Props.C52_full_matches"
   ],
   "note": "Failing sends included."
  },
  {
   "property": "C53",
   "status": "proved",
   "theorems": [
    "OM.Props.C53_complete_teams"
   ],
   "note": "Failing sends included."
  },
  {
   "property": "C54",
   "status": "proved",
   "theorems": [
    "OM.Props.C54_unique_ids"
   ],
   "note": "Also the roster names of soloduel and battleroyale; teamshooter uses team01/team02 in every match by design."
  },
  {
   "property": "C55",
   "status": "partial",
   "theorems": [
    "OM.Props.C55_truncated_request",
    "OM.Props.C55_with_participants_partial",
    "OM.Props.C55_any_client_refuted",
    "OM.Props.C55_exactly"
   ],
   "note": "Holds for every prefix of what om-core sends and for any client whose pools have participants; a client sending a pool without participants in two chunks crashes GetChunkedRequest. Exactly which broken-off streams crash is proved."
  },
  {
   "property": "C56",
   "status": "proved",
   "theorems": [
    "OM.Props.C56_missing_refused",
    "OM.Props.C56_assignments_queued"
   ],
   "note": ""
  },
  {
   "property": "C57",
   "status": "partial",
   "theorems": [
    "OM.Props.C57_reports_failures_partial",
    "OM.Props.C57_reports_failures_refuted"
   ],
   "note": "False: the call always returns OK once accepted."
  },
  {
   "property": "C58",
   "status": "proved",
   "theorems": [
    "OM.Props.C58_at_most_once",
    "OM.Props.C58_exactly_once",
    "OM.Props.C58_assignment_is_picked_up",
    "OM.Props.C58_returns_when_served"
   ],
   "note": "all schedules and cache histories. the call ends as soon as everything was sent"
  },
  {
   "property": "C59",
   "status": "partial",
   "theorems": [
    "OM.Props.C59_never_crashes_refuted",
    "OM.Props.C59_no_crash_without_timeout_partial",
    "OM.Props.C59_timeout_leaves_unserved",
    "OM.Props.C59_late_assignment_crashes",
    "OM.Props.C59_crash_exactly"
   ],
   "note": "false of the code: send on closed channel after a timeout. Every timed out watch crashes om-core once a late assignment arrives."
  },
  {
   "property": "C60",
   "status": "proved",
   "theorems": [
    "OM.Props.C60_assignments_retained"
   ],
   "note": ""
  },
  {
   "property": "C61",
   "status": "partial",
   "theorems": [
    "OM.Props.C61_gauge_refuted",
    "OM.Props.C61_gauge_partial"
   ],
   "note": "false of the code: adds instead of subtracting on timeout"
  },
  {
   "property": "C62",
   "status": "partial",
   "theorems": [
    "OM.Props.C62_counts_exact",
    "OM.Props.C62_active_gauge_partial",
    "OM.Props.C62_active_gauge_refuted"
   ],
   "note": "active gauge is off by the number of inactive ids without a ticket"
  },
  {
   "property": "C63",
   "status": "proved",
   "theorems": [
    "OM.Props.C63_batches",
    "OM.Props.C63_terminates",
    "OM.Props.C63_channel"
   ],
   "note": "Concurrent producers included in C63_batches; termination when nobody adds meanwhile (with producers that never pause the code need not terminate)."
  },
  {
   "property": "C64",
   "status": "partial",
   "theorems": [
    "OM.Props.C64_waits_refuted",
    "OM.Props.C64_begun_calls_complete_partial",
    "OM.Props.C64_may_wait_for_nothing"
   ],
   "note": "Violated: WaitGroup.Add runs inside the goroutine, so Wait can return before a call started. Whatever is queued, it can return when none of its calls has begun."
  },
  {
   "property": "C65",
   "status": "proved",
   "theorems": [
    "OM.Props.C65_decodes",
    "OM.Props.C65_last_line"
   ],
   "note": "Texts without any Unicode white space; Fscanf's behaviour is modelled from its documentation."
  },
  {
   "property": "C66",
   "status": "partial",
   "theorems": [
    "OM.Props.C66_never_blocks_refuted",
    "OM.Props.C66_up_to_capacity_partial"
   ],
   "note": "Violated for more than 10000 rejected tickets in one cycle; holds exactly up to 10000."
  },
  {
   "property": "C67",
   "status": "partial",
   "theorems": [
    "OM.Props.C67_stops_at_three_refuted",
    "OM.Props.C67_stops_at_four_partial"
   ],
   "note": "Violated: the check precedes the increment, so the loop stops at the fourth empty cycle; exact characterisation proved for four."
  },
  {
   "property": "C68",
   "status": "proved",
   "theorems": [
    "OM.Props.C68_levels_and_formats",
    "OM.Props.C68_configured",
    "OM.Props.C68_shown"
   ],
   "note": "The first for every function in place of strings.ToLower, the second with its behaviour on ASCII."
  },
  {
   "property": "C69",
   "status": "partial",
   "theorems": [
    "OM.Props.C69_created_and_activated_is_served_partial",
    "OM.Props.C69_not_before_activation_partial",
    "OM.Props.C69_served_means_in_matching_pools",
    "OM.Props.C69_refuted",
    "OM.Props.C69_own_batches_partial"
   ],
   "note": "Proved for executions in which connections to Redis work and all queued updates are acceptable to Redis, whatever crashes; C69_refuted: an assignment without content shifts the answers of its batch, so the creator of A gets the id of B. The \"not before\" half excludes the creation race refuted in C25. Texts from Redis are taken to be UTF-8 (C17). The conditions need to hold only of the batches that carry the two calls' own updates."
  },
  {
   "property": "C70",
   "status": "partial",
   "theorems": [
    "OM.Props.C70_acknowledged_updates_survive_partial",
    "OM.Props.C70_created_id_names_the_entry_partial",
    "OM.Props.C70_instances_can_catch_up",
    "OM.Props.C70_lost_connection_refuted",
    "OM.Props.C70_assignments_refuted",
    "OM.Props.C70_unreadable_error_refuted",
    "OM.Props.C70_own_batches_partial",
    "OM.Props.C70_healthy_is_well_sent"
   ],
   "note": "Proved for calls that report their responses, with working connections; refuted when the connection is lost (redis.go only logs the error) and for CreateAssignments (always OK). Also refuted when Redis refuses an update with a text that is not UTF-8. The conditions need to hold only of the batches that carry the call's own updates."
  },
  {
   "property": "C71",
   "status": "partial",
   "theorems": [
    "OM.Props.C71_exact_count_refuted",
    "OM.Props.C71_counts_one_too_many_partial"
   ],
   "note": "false of the code: one too many per MMF that ends normally"
  },
  {
   "property": "C72",
   "status": "proved",
   "theorems": [
    "OM.Props.C72_terminates",
    "OM.Props.C72_no_deadlock"
   ],
   "note": "MMF streams end, queue answers and stream.Send returns when scheduled"
  },
  {
   "property": "C73",
   "status": "proved",
   "theorems": [
    "OM.Props.C73_waits_for_the_ttl"
   ],
   "note": "in-memory ids; TTL and ids below 100 years ahead"
  },
  {
   "property": "C74",
   "status": "partial",
   "theorems": [
    "OM.Props.C74_redis_ids_refuted",
    "OM.Props.C74_gives_up_in_time_partial"
   ],
   "note": "false for Redis ids: milliseconds read as seconds; holds for in-memory ids"
  },
  {
   "property": "C75",
   "status": "partial",
   "theorems": [
    "OM.Props.C75_goroutines_end_refuted",
    "OM.Props.C75_goroutines_end_partial"
   ],
   "note": "false on timeout"
  },
  {
   "property": "C76",
   "status": "partial",
   "theorems": [
    "OM.Props.C76_blanks_kill_refuted",
    "OM.Props.C65_decodes",
    "OM.Props.C76_exactly"
   ],
   "note": "Violated: any blank inside a result ends the program."
  },
  {
   "property": "C77",
   "status": "partial",
   "theorems": [
    "OM.Props.C77_debug_enabled_refuted",
    "OM.Props.C77_always_off_partial",
    "OM.Props.C77_exactly"
   ],
   "note": "Violated: reads a key that is never set."
  },
  {
   "property": "C78",
   "status": "proved",
   "theorems": [
    "OM.Props.C78_rpc_metrics"
   ],
   "note": "Durations in whole microseconds; the division by 1000 to a float is not modelled."
  },
  {
   "property": "C79",
   "status": "proved",
   "theorems": [
    "OM.Props.C79_replication_never_panics",
    "OM.Props.C79_only_crashes_stop_an_instance"
   ],
   "note": "For clocks that do not run backwards past H; malformed entries written by other programs are C34."
  },
  {
   "property": "C80",
   "status": "proved",
   "theorems": [
    "OM.Props.C80_every_call_returns",
    "OM.Props.C80_no_deadlock",
    "OM.Props.C80_roster_fits",
    "OM.Props.C80_redis_answers"
   ],
   "note": "Every channel operation is a step; under any scheduler that keeps taking enabled steps. SendUpdates/GetUpdates of Redis are taken to return (the connection pool running dry is C35)."
  },
  {
   "property": "C81",
   "status": "proved",
   "theorems": [
    "OM.Props.C81_answers_in_order"
   ],
   "note": ""
  },
  {
   "property": "C82",
   "status": "proved",
   "theorems": [
    "OM.Props.C82_memory_in_order",
    "OM.Props.C82_memory_all_applied",
    "OM.Props.C82_memory_batch"
   ],
   "note": ""
  },
  {
   "property": "C83",
   "status": "proved",
   "theorems": [
    "OM.Props.C83_no_id_twice",
    "OM.Props.C83_ids_increase",
    "OM.Props.C83_ids_can_be_used",
    "OM.Props.C83_memory_ids_can_be_used"
   ],
   "note": "The empty id is what a client gets when the connection to Redis is lost (C11). For the in-memory store uniqueness and order are C12 and C13."
  },
  {
   "property": "C84",
   "status": "proved",
   "theorems": [
    "OM.Props.C84_duels",
    "OM.Props.C84_royales",
    "OM.Props.C84_teams",
    "OM.Props.C84_each_player_once",
    "OM.Props.C84_players_are_created",
    "OM.Props.C84_each_player_once_royale",
    "OM.Props.C84_each_player_once_teams"
   ],
   "note": "Composes C01, C06, C38, C39, C43, C50-C53 and C55 over the chunked request, the MMF and the relay; C84_players_are_created starts from executions of the whole system."
  },
  {
   "property": "C85",
   "status": "proved",
   "theorems": [
    "OM.Props.C85_requests_survive",
    "OM.Props.C85_matches_survive",
    "OM.Props.C85_wire_serves",
    "OM.Props.C85_round_on_the_wire"
   ],
   "note": "Byte-level: bytes are computed by the model's marshaller and read by its unmarshaller. The order of map entries is free at the message's own maps (pools, rosters, extensions) and fixed inside tickets. Chunk count below 2^31."
  },
  {
   "property": "C86",
   "status": "partial",
   "theorems": [
    "OM.Props.C86_numbers_partial",
    "OM.Props.C86_text",
    "OM.Props.C86_addresses",
    "OM.Props.C86_deactivation_wait",
    "OM.Props.C86_verbose",
    "OM.Props.C86_core_config",
    "OM.Props.C86_defaults",
    "OM.Props.C86_ttl_reaches_tickets",
    "OM.Props.C86_redis_agrees",
    "OM.Props.C86_poll_accepted",
    "OM.Props.C86_independent",
    "OM.Props.C86_logging",
    "OM.Props.C86_integer_syntax",
    "OM.Props.C86_malformed_refuted",
    "OM.Props.C86_octal_refuted",
    "OM.Props.C86_hex_refuted",
    "OM.Props.C86_documented_name_refuted"
   ],
   "note": "Holds for decimal values and unset variables, for every setting; exactly which texts are numbers is C86_integer_syntax. Refuted for malformed values (silently 0), leading zeros (octal), hexadecimal poll sizes (accepted by om-core, refused by Redis) and for the variable name given in the API documentation."
  },
  {
   "property": "C87",
   "status": "proved",
   "theorems": [
    "OM.Props.C87_start_exact",
    "OM.Props.C87_starts"
   ],
   "note": "Exact condition, and in terms of the environment. lim is what the runtime can allocate. Ports that cannot be listened on: C106."
  },
  {
   "property": "C88",
   "status": "partial",
   "theorems": [
    "OM.Props.C88_rejected_players_return_partial",
    "OM.Props.C88_queue_is_rejected",
    "OM.Props.C88_rejection_rate_refuted",
    "OM.Props.C88_judged",
    "OM.Props.C88_own_batches_partial"
   ],
   "note": "Return to the pools is proved in executions without lost connections or updates Redis refuses (as C69); the rejection rate is two in a hundred."
  },
  {
   "property": "C89",
   "status": "proved",
   "theorems": [
    "OM.Props.C89_exactly_one_pool",
    "OM.Props.C89_each_player_once"
   ],
   "note": ""
  },
  {
   "property": "C90",
   "status": "partial",
   "theorems": [
    "OM.Props.C90_one_mmf_partial",
    "OM.Props.C90_accepted_stay_out_refuted"
   ],
   "note": "Holds when one function is invoked; false of the example, whose functions share their pools."
  },
  {
   "property": "C91",
   "status": "partial",
   "theorems": [
    "OM.Props.C91_others_can_match_partial",
    "OM.Props.C91_royale_never",
    "OM.Props.C91_all_can_match_refuted"
   ],
   "note": "False for battleroyale: the profile has no pool named competitive."
  },
  {
   "property": "C92",
   "status": "proved",
   "theorems": [
    "OM.Props.C92_failed_creations_harmless"
   ],
   "note": ""
  },
  {
   "property": "C93",
   "status": "proved",
   "theorems": [
    "OM.Props.C93_tickets_of_text",
    "OM.Props.C93_assignments_of_text",
    "OM.Props.C93_chunks_of_text",
    "OM.Props.C93_matches_of_text"
   ],
   "note": "Stated with an independent definition of text (sequences of Unicode characters and their UTF-8 bytes)."
  },
  {
   "property": "C94",
   "status": "partial",
   "theorems": [
    "OM.Props.C94_prolonged_refuted",
    "OM.Props.C94_deadline_partial"
   ],
   "note": "False of the code: a made-up id with a time of the future (any Go integer literal before the first dash) prolongs the watch up to 292 years. Proved: the exact deadline for arbitrary ids."
  },
  {
   "property": "C95",
   "status": "partial",
   "theorems": [
    "OM.Props.C95_deactivated_stays_out_partial",
    "OM.Props.C95_matched_stays_out_partial",
    "OM.Props.C95_lost_deactivation_refuted",
    "OM.Props.C95_matched_refuted",
    "OM.Props.C95_own_batches_partial"
   ],
   "note": "Proved for executions without lost connections and refused updates and, for matches, without error answers to the deactivations. Refuted in general: the code only logs both kinds of failure. Texts from Redis are taken to be UTF-8 (C17). The conditions need to hold only of the batches that carry the two calls' own updates."
  },
  {
   "property": "C96",
   "status": "partial",
   "theorems": [
    "OM.Props.C96_assignments_authentic",
    "OM.Props.C96_watched_authentic",
    "OM.Props.C96_assigned_is_held_partial",
    "OM.Props.C96_held_is_sent",
    "OM.Props.C96_assigned_is_held_refuted",
    "OM.Props.C96_own_batches_partial"
   ],
   "note": "Authenticity is proved without conditions. Delivery is proved when no connection is lost and no update is refused or answered with an error; refuted in general, since CreateAssignments drops errors. The conditions need to hold only of the batches that carry the call's own updates."
  },
  {
   "property": "C97",
   "status": "partial",
   "theorems": [
    "OM.Props.C97_nobody_stranded_partial",
    "OM.Props.C97_matchmaker_gone_refuted",
    "OM.Props.C97_failing_stream_refuted",
    "OM.Props.C97_own_stream_partial"
   ],
   "note": "Proved when all MMF streams end normally, the last send has ended and the matchmaker stays connected. Refuted otherwise: the error of stream.Send is dropped, and a failing MMF stream loses matches whose tickets were already queued for deactivation. Only the match's own MMF's stream matters."
  },
  {
   "property": "C98",
   "status": "proved",
   "theorems": [
    "OM.Props.C98_routes",
    "OM.Props.C98_refusals",
    "OM.Props.C98_example_urls",
    "OM.Props.C98_empty_body"
   ],
   "note": "grpc-gateway's ServeMux is modelled as of 2.19.0; what JSON bodies decode to is C109."
  },
  {
   "property": "C99",
   "status": "partial",
   "theorems": [
    "OM.Props.C99_every_function_is_called_refuted",
    "OM.Props.C99_every_function_is_called_partial",
    "OM.Props.C99_places_are_distinct"
   ],
   "note": "Type REST is the enum's default (messages.proto:180) and not implemented (main.go:532-536), so a spec without a type is never called and the call still returns OK; the comment at main.go:538 takes gRPC for the default. Partial: specs of any other type are called at their own place. Distinct places are proved in full."
  },
  {
   "property": "C100",
   "status": "proved",
   "theorems": [
    "OM.Props.C100_labels"
   ],
   "note": ""
  },
  {
   "property": "C101",
   "status": "partial",
   "theorems": [
    "OM.Props.C101_ids_across_runs_refuted",
    "OM.Props.C101_ids_across_runs_partial",
    "OM.Props.C101_same_hundredth_partial",
    "OM.Props.C101_clock_in_id"
   ],
   "note": "The id holds the function's name, a clock text in hundredths of a second and a number that starts at 0 in each run, but not the profile: two runs for two profiles in the same hundredth of a second repeat ids. Partial: equal ids imply the same function and the same clock text, that is the same hundredth of a second of the local clock."
  },
  {
   "property": "C102",
   "status": "partial",
   "theorems": [
    "OM.Props.C102_port_refuted",
    "OM.Props.C102_port_exactly",
    "OM.Props.C102_port_partial"
   ],
   "note": "strconv.Atoi's 64 bits are cut to 32 (mmf/main.go:58), and a number beyond 64 bits counts as no number. C102_port_exactly says what is served for every value."
  },
  {
   "property": "C103",
   "status": "partial",
   "theorems": [
    "OM.Props.C103_per_call_metrics_refuted",
    "OM.Props.C103_per_call_metrics_partial",
    "OM.Props.C103_unless_failures_partial"
   ],
   "note": "The number of updates put on the queue is recorded, whether or not they succeed. Deactivations caused by matches are not recorded anywhere (core/metrics.go:132-134)."
  },
  {
   "property": "C104",
   "status": "partial",
   "theorems": [
    "OM.Props.C104_double_booked_refuted",
    "OM.Props.C104_no_double_booking_partial",
    "OM.Props.C104_players_from_snapshot",
    "OM.Props.C104_own_batches_partial"
   ],
   "note": "Refuted: deactivations reach the cache only through the stream, so a round started before they are read back can match the same players again, whatever OM_MATCH_TICKET_DEACTIVATION_WAIT is. Partial: it holds once the instance has applied what was in the stream when the match was handed out."
  },
  {
   "property": "C105",
   "status": "partial",
   "theorems": [
    "OM.Props.C105_duration_refuted",
    "OM.Props.C105_duration_partial",
    "OM.Props.C105_counts_refuted",
    "OM.Props.C105_removed_counts_partial"
   ],
   "note": "The counts a cycle computes and logs are exact, but they are not recorded as metrics; the duration is recorded in whole milliseconds."
  },
  {
   "property": "C106",
   "status": "partial",
   "theorems": [
    "OM.Props.C106_own_port_refuted",
    "OM.Props.C106_served_where_configured_partial",
    "OM.Props.C106_collisions",
    "OM.Props.C106_port_zero_refuted",
    "OM.Props.C106_rest_partial"
   ],
   "note": "Full for port numbers 1 to 65535 other than 2223 and 2224. With one of these, om-core's own metrics or profiling server competes with gRPC for the port. With PORT=0 the system picks a port and the gateway dials port 0. How Go's net package reads a port is a parameter, assumed only to read decimal numbers; the order in which the four servers ask for their ports is arbitrary (gRPC before REST)."
  },
  {
   "property": "C107",
   "status": "proved",
   "theorems": [
    "OM.Props.C107_unambiguous",
    "OM.Props.C107_requests_understood",
    "OM.Props.C107_functions_understood",
    "OM.Props.C107_written_as_published",
    "OM.Props.C107_stored_as_published",
    "OM.Props.C107_answers_understood",
    "OM.Props.C107_numbers_cut"
   ],
   "note": "The published formats are transcribed in Spec/Schema.lean, independently of the model's encoder and decoder. What is read is settled exactly: a message is read from bytes if and only if they encode it and its strings are text. Undeclared fields are of wire types 0, 1, 2 and 5; the model drops them, Go keeps them."
  },
  {
   "property": "C108",
   "status": "partial",
   "theorems": [
    "OM.Props.C108_failure_ends_process_refuted",
    "OM.Props.C108_failure_ends_process_partial",
    "OM.Props.C108_after_registration_partial",
    "OM.Props.C108_only_failures_end"
   ],
   "note": "start and the goroutines of both servers share one variable err: if the gRPC server fails while the gateway is being registered, the registration sets err back to nil before the goroutine tests it, and the process stays up without a gRPC server. Partial: this is the only way; after the registration every failure ends the process, and a failure of the REST server always does."
  },
  {
   "property": "C109",
   "status": "partial",
   "theorems": [
    "OM.Props.C109_requests_read",
    "OM.Props.C109_refused",
    "OM.Props.C109_reaches_server",
    "OM.Props.C109_any_ticket_refuted",
    "OM.Props.C109_undeclared_ignored"
   ],
   "note": "Refuted for tickets with extensions of types not linked into om-core: they cannot be created over REST (gRPC accepts them). Everything else in the statement is proved exactly (which bodies, which message, status 400, unchanged to the gRPC server). Parameters: how decimal texts and doubles correspond (strconv), the types known for Any."
  },
  {
   "property": "C110",
   "status": "partial",
   "theorems": [
    "OM.Props.C110_answers",
    "OM.Props.C110_streams_partial",
    "OM.Props.C110_same_matches_refuted",
    "OM.Props.C110_example_functions"
   ],
   "note": "Refuted for streams with a match that has an extension of a type om-core does not know (or a time outside the years 1 to 9999): the REST stream ends there with an error. Proved: exactly which messages can be written and that the text is JSON for them; streams are complete up to the first unwritable message; the matches of this repository's three MMFs can always be written."
  },
  {
   "property": "C111",
   "status": "partial",
   "theorems": [
    "OM.Props.C111_requests_arrive",
    "OM.Props.C111_id_returns",
    "OM.Props.C111_matches_partial",
    "OM.Props.C111_unwritable_match",
    "OM.Props.C111_any_match_refuted"
   ],
   "note": "Refuted for a match with a blank in a string: the example exits. Proved: requests arrive (a request that cannot be written arrives as the empty request), ids come back, matches are decoded as sent exactly if no string of their JSON has unescaped white space; a match om-core cannot write ends the example."
  },
  {
   "property": "C112",
   "status": "proved",
   "theorems": [
    "OM.Props.C112_ids",
    "OM.Props.C112_each_activated_once",
    "OM.Props.C112_calls_arrive"
   ],
   "note": "An activation call that fails (Redis, network) is logged and not repeated; the theorem counts the calls made and what om-core queues for them. Ids are Redis stream ids (WellFormedId), as C10 shows for created tickets."
  },
  {
   "property": "C113",
   "status": "partial",
   "theorems": [
    "OM.Props.C113_omhost_refuted",
    "OM.Props.C113_target_partial",
    "OM.Props.C113_defaults"
   ],
   "note": "Refuted: over HTTP, the default, -omhost is ignored and every call goes to localhost:58081. Proved: with -conn=grpc, and only then, -omhost is used; with nothing configured on either side both ways reach an om-core on the same machine."
  },
  {
   "property": "C114",
   "status": "partial",
   "theorems": [
    "OM.Props.C114_goes_on_refuted",
    "OM.Props.C114_exactly_partial"
   ],
   "note": "Refuted: without an om-core the example ends, over REST by dereferencing a nil response. Proved exactly what happens: over gRPC it goes on with the matches sent whenever there is an om-core; over REST it ends if the call is refused or if a string of a match or the message of the final error has a blank; otherwise it gets the matches sent, and an error at the end of the stream is counted as one more, empty, match."
  },
  {
   "property": "C115",
   "status": "proved",
   "theorems": [
    "OM.Props.C115_rejected_reactivated",
    "OM.Props.C115_endings",
    "OM.Props.C115_progress",
    "OM.Props.C115_terminates",
    "OM.Props.C88_judged"
   ],
   "note": "The activation calls counted are those made; one that fails is logged and not repeated. That the loop stops after four rather than three empty cycles is C67."
  },
  {
   "property": "C116",
   "status": "partial",
   "theorems": [
    "OM.Props.C116_idle_only_refuted",
    "OM.Props.C116_exact_partial",
    "OM.Props.C116_nothing_missed",
    "OM.Props.C116_limit"
   ],
   "note": "the setting is also the connect and read timeout (witness: \"300\", which is 300 ns); exact effect of any setting and timing, exact meaning of its text, and that nothing is missed"
  },
  {
   "property": "C117",
   "status": "partial",
   "theorems": [
    "OM.Props.C117_duration_refuted",
    "OM.Props.C117_duration_partial",
    "OM.Props.C117_tickets_refuted"
   ],
   "note": "overflows above 292 years (witness: 9999999999 seconds leaves no time); exactly the numbers up to there have their meaning"
  },
  {
   "property": "C118",
   "status": "proved",
   "theorems": [
    "OM.Props.C118_round_over_rest",
    "OM.Props.C118_example"
   ],
   "note": "For tickets, profile names and clocks that JSON can hold and without blanks, and the MMFs of this repository, a matchmaker over REST receives exactly what om-core handed out; the mock frontend's players, as cached after any execution, and the example profile satisfy this. Assumes a round that ends without an error (with one, C114 applies) and the trusted facts of the JSON model (float text, well-known types)."
  },
  {
   "property": "C119",
   "status": "proved",
   "theorems": [
    "OM.Props.C119_errors_reported",
    "OM.Props.C119_messages",
    "OM.Props.C119_http",
    "OM.Props.C119_create_ticket",
    "OM.Props.C119_activation",
    "OM.Props.C119_refusals",
    "OM.Props.C119_example",
    "OM.Props.C119_missing"
   ],
   "note": "About errors that handlers return; that a failed (de)activation may return none at all is C17, and which violations there are is C18. grpc-go and grpc-gateway are modelled from general knowledge (see DESIGN). Violations without UTF-8 cannot occur: addStateUpdateErrorDetails fails on them (C17)."
  },
  {
   "property": "C120",
   "status": "proved",
   "theorems": [
    "OM.Props.C120_batch",
    "OM.Props.C120_poll"
   ],
   "note": "Redis' parser and redigo's writer are modelled from general knowledge (not in /repo). Texts of at most 512 MiB, Redis' limit."
  },
  {
   "property": "C121",
   "status": "proved",
   "theorems": [
    "OM.Props.C121_send",
    "OM.Props.C121_whole_updates",
    "OM.Props.C121_poll",
    "OM.Props.C121_round_trip"
   ],
   "note": "Refines `redisSend` and the configured poll of the other Redis claims (C10, C11, C18, C21, C22, C86), whose `lost` is now derived from the bytes that get through. That a failure as a whole is not reported to clients is C11."
  },
  {
   "property": "C122",
   "status": "proved",
   "theorems": [
    "OM.Props.C122_write",
    "OM.Props.C122_read",
    "OM.Props.C122_one_user"
   ],
   "note": ""
  },
  {
   "property": "C123",
   "status": "partial",
   "theorems": [
    "OM.Props.C123_one_cycle_partial",
    "OM.Props.C123_quiet_scrape",
    "OM.Props.C123_one_cycle_refuted"
   ],
   "note": "A cycle ending between the reads of cache/metrics.go:98 makes the active gauge a mix of two cycles (even -1); what holds for all interleavings is proved."
  },
  {
   "property": "C124",
   "status": "partial",
   "theorems": [
    "OM.Props.C124_series_partial",
    "OM.Props.C124_successes",
    "OM.Props.C124_series_grow",
    "OM.Props.C124_bounded_refuted"
   ],
   "note": "The refusal of a request with too many ids names their number, and the text is a metric attribute: one time series per size (gRPC's 4 MB limit allows about two million)."
  },
  {
   "property": "C125",
   "status": "partial",
   "theorems": [
    "OM.Props.C125_never_crashes_refuted",
    "OM.Props.C125_up_to_500_partial",
    "OM.Props.C125_exactly",
    "OM.Props.C125_refines",
    "OM.Props.C125_ends",
    "OM.Props.C125_begun_first"
   ],
   "note": "Violated: sync.WaitGroup panics when Add runs while Wait is being woken, and main.go:433 calls Add inside the goroutines; with more than 500 ids (two calls) some schedule panics, with at most 500 none does."
  },
  {
   "property": "C126",
   "status": "partial",
   "theorems": [
    "OM.Props.C126_refines",
    "OM.Props.C126_deaf",
    "OM.Props.C126_mute",
    "OM.Props.C126_answers_refuted",
    "OM.Props.C126_hears_refuted",
    "OM.Props.C126_for_a_while_partial",
    "OM.Props.C126_unlimited_partial"
   ],
   "note": "Runs with pools are runs of the system of C69-C96. Fails for every positive limit (the default is 500): an instance is deaf after that many polls and mute after that many batches until its process ends. Holds without a limit, and for executions of at most as many steps as the limit."
  },
  {
   "property": "C127",
   "status": "partial",
   "theorems": [
    "OM.Props.C127_blinded",
    "OM.Props.C127_no_matches",
    "OM.Props.C127_one_ticket_stops_all_refuted",
    "OM.Props.C127_reasonable_tickets_partial",
    "OM.Props.C127_exactly",
    "OM.Props.C127_few_partial"
   ],
   "note": "The full statement is C127_statement; false of the code (one ticket of 4 MiB). grpc-go's default limit on received messages is general knowledge. Exactly: the request arrives whole iff every chunk is within 4 MiB, and otherwise no bundled function makes a match."
  },
  {
   "property": "C128",
   "status": "partial",
   "theorems": [
    "OM.Props.C128_every_match_arrives_refuted",
    "OM.Props.C128_up_to_the_first_long_match",
    "OM.Props.C128_short_tickets_partial"
   ],
   "note": "The full statement is C128_statement; false of the code (two tickets of 2.2 MB in a duel)."
  },
  {
   "property": "C129",
   "status": "partial",
   "theorems": [
    "OM.Props.C129_metrics_refuted",
    "OM.Props.C129_own_port",
    "OM.Props.C129_metrics_partial"
   ],
   "note": "Full where the ports are free and PORT is another one. Otherwise om-core prints an error and runs without metrics."
  },
  {
   "property": "C130",
   "status": "partial",
   "theorems": [
    "OM.Props.C130_profiles_are_local_refuted",
    "OM.Props.C130_profiles_partial",
    "OM.Props.C130_local_clients"
   ],
   "note": "False: the metrics server and the profiling server share http.DefaultServeMux, so that all profiles are at port 2223, on every address. The partial theorem is exact: this is the only port where other machines get them."
  },
  {
   "property": "C131",
   "status": "proved",
   "theorems": [
    "OM.Props.C131_answered_in_time",
    "OM.Props.C131_bound_reached",
    "OM.Props.C131_in_order",
    "OM.Props.C131_never_stuck",
    "OM.Props.C131_same_queue"
   ],
   "note": "Timed model of the outgoing queue with the handlers waiting at the unbuffered channel; the bound is reached by a concrete run; forgetting time gives exactly the batches of the untimed model (C131_same_queue)."
  },
  {
   "property": "C132",
   "status": "proved",
   "theorems": [
    "OM.Props.C132_applied_in_time",
    "OM.Props.C132_bound_reached",
    "OM.Props.C132_in_order",
    "OM.Props.C132_never_stuck",
    "OM.Props.C132_slow_reads"
   ],
   "note": "Timed model of both incoming goroutines with Redis as the storage, while reads succeed (C126 shows when they stop). The hypothesis that reads are faster than the sleep is needed (C132_slow_reads)."
  },
  {
   "property": "C133",
   "status": "partial",
   "theorems": [
    "OM.Props.C133_one_match_each_refuted",
    "OM.Props.C133_one_function_partial",
    "OM.Props.C133_exactly"
   ],
   "note": "false of the code for two or more functions (om-core does not remove collisions, as its own comment says); proved for one of the example's functions, and the exact count for any"
  },
  {
   "property": "C134",
   "status": "partial",
   "theorems": [
    "OM.Props.C134_served_eventually_refuted",
    "OM.Props.C134_anyone_can_be_left",
    "OM.Props.C134_at_most_one_left_partial"
   ],
   "note": "false of the code: the snapshot is in the order of a sync.Map; at most one fitting player is left over per round"
  },
  {
   "property": "C135",
   "status": "partial",
   "theorems": [
    "OM.Props.C135_read_to_the_end_refuted",
    "OM.Props.C135_waits_for_the_deadline",
    "OM.Props.C135_counting_partial",
    "OM.Props.C135_soloduel_partial",
    "OM.Props.C135_with_close_send"
   ],
   "note": "false of the code: om-core never calls CloseSend; functions that count chunks are served"
  },
  {
   "property": "C136",
   "status": "partial",
   "theorems": [
    "OM.Props.C136_answer_early_refuted",
    "OM.Props.C136_some_function_hangs",
    "OM.Props.C136_enough_room_partial"
   ],
   "note": "false of the code: om-core sends all chunks before it receives; served if the early matches fit into the connection"
  },
  {
   "property": "C137",
   "status": "partial",
   "theorems": [
    "OM.Props.C137_once_caught_up_partial",
    "OM.Props.C137_every_past_state",
    "OM.Props.C137_offers_matched_players_refuted",
    "OM.Props.C137_own_batches_partial"
   ],
   "note": "Refuted: an instance answers calls while it replays the stream, so it can offer players matched before it was started; it can be asked in any past state of the stream. Proved once it has applied what was in the stream when it was started."
  },
  {
   "property": "C138",
   "status": "partial",
   "theorems": [
    "OM.Props.C138_again_partial",
    "OM.Props.C138_create_again_partial",
    "OM.Props.C138_activate_again_refuted",
    "OM.Props.C95_matched_stays_out_partial"
   ],
   "note": "Refuted for ActivateTickets when the ticket was matched between the lost call and its repetition. Proved: repetitions change nothing when nothing came in between that undoes them; creations may be repeated (outside the race of C25); activations that ended before the match do no harm (C95)."
  },
  {
   "property": "C139",
   "status": "proved",
   "theorems": [
    "OM.Props.C139_visible_in_time",
    "OM.Props.C139_visible_after_answer",
    "OM.Props.C139_one_stream",
    "OM.Props.C139_never_stuck"
   ],
   "note": "Any number of instances with one clock; each sees of an execution what C131 and C132 are proved of. Under the hypotheses of C132 (reads succeed and are faster than the sleep) and while writes succeed."
  },
  {
   "property": "C140",
   "status": "proved",
   "theorems": [
    "OM.Props.C140_seen_in_time",
    "OM.Props.C140_answered_in_time",
    "OM.Props.C140_keeps_up",
    "OM.Props.C140_applied_in_time",
    "OM.Props.C140_capacity",
    "OM.Props.C140_overload",
    "OM.Props.C140_sustained"
   ],
   "note": "Model/Delay.lean and Model/Lag.lean; W = toAll p B = toAnswer p (B-1) + toApply p (B-1). C140_overload shows that the capacity is sharp."
  },
  {
   "property": "C141",
   "status": "partial",
   "theorems": [
    "OM.Props.C141_confirmed_stored",
    "OM.Props.C141_all_told",
    "OM.Props.C141_stored_once",
    "OM.Props.C141_closed",
    "OM.Props.C141_ends",
    "OM.Props.C141_only_by_signal",
    "OM.Props.C141_completed_partial",
    "OM.Props.C141_completed_refuted",
    "OM.Props.C141_served",
    "OM.Props.C141_can_be_told"
   ],
   "note": "Stop does not wait for calls in progress nor for the queue: a client can be told Unavailable although all or some of its updates are stored."
  },
  {
   "property": "C142",
   "status": "proved",
   "theorems": [
    "OM.Props.C142_offered_in_time",
    "OM.Props.C142_withdrawn_in_time",
    "OM.Props.C142_answered_is_stored"
   ],
   "note": "The bound W is toAll of C139 for B updates; the traffic condition is that of C140. A look is a snapshot of the cache taken while it may be changed (C27). Expiration is excluded by Fresh, as in C23."
  },
  {
   "property": "C143",
   "status": "proved",
   "theorems": [
    "OM.Props.C143_served_in_time",
    "OM.Props.C143_told_in_time",
    "OM.Props.C143_what_is_told",
    "OM.Props.C143_never_stuck",
    "OM.Props.C143_world_never_stuck",
    "OM.Props.C143_ends_in_time",
    "OM.Props.C143_ten_minutes"
   ],
   "note": "Timed model of the call beside the timed model of all instances; the clock cannot pass what is due, and no reachable state is stuck. Calls to the storage succeed (C126); giving up: C60, C73, C74; expiration of assignments: C32."
  },
  {
   "property": "C144",
   "status": "partial",
   "theorems": [
    "OM.Props.C144_tickets_bounded_partial",
    "OM.Props.C144_ids_kept",
    "OM.Props.C144_assignments_kept",
    "OM.Props.C144_memory_grows",
    "OM.Props.C144_memory_bounded_refuted"
   ],
   "note": "False of the code: with the ids of Redis, inactive ids and assignments are kept for ever (C32: milliseconds read as seconds), for every history with clocks before the year 50000. Proved of the tickets."
  },
  {
   "property": "C145",
   "status": "partial",
   "theorems": [
    "OM.Props.C145_refused_looks_empty_partial",
    "OM.Props.C145_refused_pool_reported_refuted"
   ],
   "note": "The code only logs a refused pool (core/main.go:402-407); C145_refused_pool_reported_refuted is a call with OK. The partial theorem shows that no answer tells a refused pool from one without players."
  },
  {
   "property": "C146",
   "status": "proved",
   "theorems": [
    "OM.Props.C146_nothing_changes",
    "OM.Props.C146_carried_out",
    "OM.Props.C146_unknown"
   ],
   "note": "In the model of Stop: writes succeed."
  },
  {
   "property": "C147",
   "status": "partial",
   "theorems": [
    "OM.Props.C147_logged_partial",
    "OM.Props.C147_reason_refuted",
    "OM.Props.C147_tried_again_refuted"
   ],
   "note": "Over REST (the default) the status line is not looked at and err is shadowed, so only the failure to unmarshal is logged; the ids of a failed call are dropped. Failures of protojson.Marshal are left out. A failed activation over REST has exactly one line, which does not say that the activation failed."
  },
  {
   "property": "C148",
   "status": "proved",
   "theorems": [
    "OM.Props.C148_catches_up",
    "OM.Props.C148_all_caught_up",
    "OM.Props.C148_then_as_before",
    "OM.Props.C148_in_order",
    "OM.Props.C148_blind",
    "OM.Props.C148_bound_reached"
   ],
   "note": "An outage ends when the first read begins that succeeds. Connections are assumed not to run out (OM_REDIS_POOL_MAX_ACTIVE of 0 or less; by default they do after 500 polls, C126)."
  },
  {
   "property": "C149",
   "status": "proved",
   "theorems": [
    "OM.Props.C149_declarations",
    "OM.Props.C149_declared",
    "OM.Props.C149_json_names",
    "OM.Props.C149_plain",
    "OM.Props.C149_enums",
    "OM.Props.C149_types",
    "OM.Props.C149_structs",
    "OM.Props.C149_reads",
    "OM.Props.C149_readers",
    "OM.Props.C149_ticket"
   ],
   "note": "The descriptors are transcribed byte for byte and decoded by the model's own reader. The declarations are finitely many and compared by evaluation in the kernel; what can be read is proved for all bytes. core/pkg and pkg are the same."
  },
  {
   "property": "C150",
   "status": "proved",
   "theorems": [
    "OM.Props.C150_declared",
    "OM.Props.C150_tables",
    "OM.Props.C150_routed",
    "OM.Props.C150_clients",
    "OM.Props.C150_reaches",
    "OM.Props.C150_refused",
    "OM.Props.C150_run"
   ],
   "note": "Paths begin with a slash, as HTTP/2 requires; grpc-go's routing is that of v1.62.1."
  },
  {
   "property": "C151",
   "status": "partial",
   "theorems": [
    "OM.Props.C151_passwords_shown",
    "OM.Props.C151_exact_partial",
    "OM.Props.C151_secret_refuted"
   ],
   "note": "Refuted: with OM_LOGGING_LEVEL=debug every start writes both Redis passwords to the log. Exact: what reading the configuration writes is independent of the passwords if and only if the level is not \"debug\". The statement does not speak of lines other than those of config.Read; the only other readers of the two settings are redis.go:62 and :86, which pass them to redigo (C122)."
  },
  {
   "property": "C152",
   "status": "partial",
   "theorems": [
    "OM.Props.C152_json_partial",
    "OM.Props.C152_text_partial",
    "OM.Props.C152_json_unambiguous",
    "OM.Props.C152_text_unambiguous",
    "OM.Props.C152_one_line_refuted",
    "OM.Props.C152_terminal_partial",
    "OM.Props.C152_create_ticket"
   ],
   "note": "Proved for JSON (the default) and for text that does not go to a terminal. Refuted on a terminal, where messages are written as they are: a record is one line exactly if its message has no newline but perhaps at its end; CreateTicket puts the client's ticket id into one. The stackdriver formatter is not modelled."
  },
  {
   "property": "C153",
   "status": "partial",
   "theorems": [
    "OM.Props.C153_debug_partial",
    "OM.Props.C153_otherwise",
    "OM.Props.C153_cases_refuted"
   ],
   "note": "Proved for OM_LOGGING_LEVEL=debug in small letters; with any other text no setting is shown, so refuted for DEBUG and trace."
  },
  {
   "property": "C154",
   "status": "partial",
   "theorems": [
    "OM.Props.C154_near_partial",
    "OM.Props.C154_rest_partial",
    "OM.Props.C154_written",
    "OM.Props.C154_sum_refuted",
    "OM.Props.C154_text"
   ],
   "note": "The four numbers are proved exact for a cache at rest and, while updates go on being applied, exact up to the number of writes made meanwhile. Refuted: active and inactive do not add up to the tickets when an id was deactivated that has no ticket; the excess is exactly the number of such ids."
  },
  {
   "property": "C155",
   "status": "partial",
   "theorems": [
    "OM.Props.C155_lines_partial",
    "OM.Props.C155_grpc_partial",
    "OM.Props.C155_rest_partial",
    "OM.Props.C155_error_refuted",
    "OM.Props.C155_totals",
    "OM.Props.C155_last_words",
    "OM.Props.C155_text",
    "OM.Props.C155_queued",
    "OM.Props.C155_unread_partial",
    "OM.Props.C155_calls",
    "OM.Props.C155_end"
   ],
   "note": "The lines are proved exactly, for all executions, with their text. Refuted: the variable err of main.go:344 is that of :162, always nil there; errors over gRPC have a line of their own. Over REST an error that ends a stream is counted as a match, and all the log has of it is that a part of the answer could not be read."
  }
 ]
}