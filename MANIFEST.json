{
 "claims": [
  {
   "property": "C01",
   "status": "proved",
   "theorems": [
    "Finch.C01_allocated_clients",
    "Finch.C01_saved_columns",
    "Finch.C01_same_generator_iff_same_scope_instance",
    "Finch.C01_different_keys_different_generators",
    "Finch.C01_scope_names",
    "Finch.C01_accepted_scopes"
   ],
   "note": ""
  },
  {
   "property": "C02",
   "status": "partial",
   "theorems": [
    "Finch.C02_allocated_clients_partial",
    "Finch.C02_global_scope_never_gets_a_generator",
    "Finch.C02_every_key_has_a_generator_partial",
    "Finch.C02_prev_has_no_generator"
   ],
   "note": "True for every scope except global, for which the code never creates a generator (C02_global_scope_never_gets_a_generator). The @PREV special key has none by design."
  },
  {
   "property": "C03",
   "status": "proved",
   "theorems": [
    "Finch.C03_single_client_values",
    "Finch.C03_one_call_per_scope_iteration"
   ],
   "note": ""
  },
  {
   "property": "C04",
   "status": "proved",
   "theorems": [
    "Finch.C04_explicit_call_always_generates",
    "Finch.C04_explicit_value_becomes_current",
    "Finch.C04_value_scope_always_generates"
   ],
   "note": "Scopes up to workload; stage and global are treated by C07."
  },
  {
   "property": "C05",
   "status": "proved",
   "theorems": [
    "Finch.C05_client_group_scope",
    "Finch.C05_uninterrupted_use_is_sequential_use"
   ],
   "note": "Steps are the lock sections and the real generator's call."
  },
  {
   "property": "C06",
   "status": "partial",
   "theorems": [
    "Finch.C06_clients_of_different_groups_interfere",
    "Finch.C06_distinct_numbers_independent_partial"
   ],
   "note": "False of the code: client numbers repeat across client groups (C06_clients_of_different_groups_interfere). The partial theorem covers clients with different numbers."
  },
  {
   "property": "C07",
   "status": "partial",
   "theorems": [
    "Finch.C07_one_time_scope_never_generates",
    "Finch.C07_one_time_scope_regenerates_after_explicit_call",
    "Finch.C07_one_time_explicit_use_partial"
   ],
   "note": "False of the code: the nil check at data/scope.go:251 is inverted. Two negations are proved for all uses; the partial theorem covers explicit calls."
  },
  {
   "property": "C08",
   "status": "proved",
   "theorems": [
    "Finch.C08_reset_keeps_exactly_stage_and_global",
    "Finch.C08_reset_touches_nothing_else",
    "Finch.C08_reset_idempotent"
   ],
   "note": ""
  },
  {
   "property": "C09",
   "status": "partial",
   "theorems": [
    "Finch.C09_uniform_in_range_partial",
    "Finch.C09_uniform_max_not_positive_panics",
    "Finch.C09_zero_range_is_accepted"
   ],
   "note": "Accepted configurations with max <= 0 panic (negation proved); the partial theorem covers all with max > 0."
  },
  {
   "property": "C10",
   "status": "partial",
   "theorems": [
    "Finch.C10_normal_in_range_partial",
    "Finch.C10_normal_in_range_or_mean",
    "Finch.C10_default_mean_outside_range",
    "Finch.C10_large_mean_false"
   ],
   "note": "In float64 arithmetic, for any standard deviation (infinities and NaN included) and any result of conversions that Go leaves undefined. False if the mean is outside [min, max]; the default mean is (max-min+1)/2, which is often outside (C10_default_mean_outside_range), and for means above 2^53, which are rounded (C10_large_mean_false). The draws are arbitrary rationals."
  },
  {
   "property": "C11",
   "status": "partial",
   "theorems": [
    "Finch.C11_int_gaps_in_range_partial",
    "Finch.C11_int_gaps_strictly_increasing_partial",
    "Finch.C11_exact_arithmetic_partial",
    "Finch.C11_small_range_panics",
    "Finch.C11_single_index_is_nan",
    "Finch.C11_fewer_values_than_percentage",
    "Finch.C11_max_not_reached"
   ],
   "note": "Float64 rounding is modelled exactly. False in four ways, each proved: ranges with fewer than one index panic, with one index give NaN, input_max can be one too small, max can be unreachable. The partial theorems prove range and strict monotonicity with rounding for max*input_max <= 2^49, and the full claim in exact arithmetic."
  },
  {
   "property": "C12",
   "status": "partial",
   "theorems": [
    "Finch.C12_int_range_well_formed_partial",
    "Finch.C12_every_lower_bound_possible",
    "Finch.C12_size_zero_is_accepted_and_reversed",
    "Finch.C12_overflow_at_int64_limit"
   ],
   "note": "Negations for size <= 0 and for ranges ending near 2^63; partial for the rest."
  },
  {
   "property": "C13",
   "status": "partial",
   "theorems": [
    "Finch.C13_sequential_chunks_partial",
    "Finch.C13_chunks_partition_range",
    "Finch.C13_size_zero_never_advances",
    "Finch.C13_overflow_at_int64_limit"
   ],
   "note": "Negations for size <= 0 and for ranges ending near 2^63; partial for the rest."
  },
  {
   "property": "C14",
   "status": "proved",
   "theorems": [
    "Finch.C14_auto_inc_values",
    "Finch.C14_auto_inc_unique",
    "Finch.C14_auto_inc_period"
   ],
   "note": ""
  },
  {
   "property": "C15",
   "status": "proved",
   "theorems": [
    "Finch.C15_str_fill_az",
    "Finch.C15_every_letter_string_possible"
   ],
   "note": "Returns is partial correctness: a source that never yields a letter makes the Go loop run forever."
  },
  {
   "property": "C16",
   "status": "proved",
   "theorems": [
    "Finch.C16_client_id_values",
    "Finch.C16_client_id_default",
    "Finch.C16_client_id_unknown_rejected"
   ],
   "note": ""
  },
  {
   "property": "C17",
   "status": "partial",
   "theorems": [
    "Finch.C17_column_holds_most_recent_scan",
    "Finch.C17_column_nil_before_first_scan",
    "Finch.C17_saved_value_is_used_partial",
    "Finch.C17_second_save_in_same_trx_is_ignored"
   ],
   "note": "A second save after a use in the same trx is not seen (negation proved)."
  },
  {
   "property": "C18",
   "status": "proved",
   "theorems": [
    "Finch.C18_bounded_overshoot",
    "Finch.C18_count_is_rows_written",
    "Finch.C18_nothing_starts_after_limit",
    "Finch.C18_limit_decides"
   ],
   "note": "Any number of clients, any combination with other limits. Row counts are int64; the theorems assume max + clients*b < 2^63."
  },
  {
   "property": "C19",
   "status": "proved",
   "theorems": [
    "Finch.C19_calls_measure_the_table",
    "Finch.C19_continues_below_limit",
    "Finch.C19_one_of_m_calls_stops",
    "Finch.C19_bounded_statements_after_limit"
   ],
   "note": "n wraps at 2^64 as in Go. What MySQL answers is an input."
  },
  {
   "property": "C20",
   "status": "partial",
   "theorems": [
    "Finch.C20_database_size_false",
    "Finch.C20_database_size_stops_at_first_check_partial"
   ],
   "note": "False of the code: the rows of SHOW FULL TABLES are closed before they are read, so ANALYZE TABLE has no table names. The partial theorem describes what happens instead."
  },
  {
   "property": "C21",
   "status": "proved",
   "theorems": [
    "Finch.C21_combined_respects_both",
    "Finch.C21_nil_is_neutral",
    "Finch.C21_permit_when_both_allow"
   ],
   "note": "Ticks of golang.org/x/time/rate are inputs; C111 adds time."
  },
  {
   "property": "C22",
   "status": "proved",
   "theorems": [
    "Finch.C22_permits_bounded_by_ticks",
    "Finch.C22_stage_limit",
    "Finch.C22_exec_group_limit",
    "Finch.C22_client_group_limit",
    "Finch.C22_client_limit",
    "Finch.C22_no_limit_no_limiter"
   ],
   "note": "Ticks of golang.org/x/time/rate are inputs; C111 adds time."
  },
  {
   "property": "C23",
   "status": "partial",
   "theorems": [
    "Finch.C23_continues_iff_all_allow",
    "Finch.C23_affected_reaches_every_limit",
    "Finch.C23_nil_is_neutral",
    "Finch.C23_modifiers_combine_partial",
    "Finch.C23_zero_rows_false",
    "Finch.C23_zero_rows_panics"
   ],
   "note": "False for '-- rows: 0' (typed nil pointer in an interface): negation and panic proved. Partial theorem for positive values."
  },
  {
   "property": "C24",
   "status": "proved",
   "theorems": [
    "Finch.C24_statistics_are_exact",
    "Finch.C24_histogram_sums_to_count",
    "Finch.C24_order_irrelevant",
    "Finch.C24_errors_are_counted"
   ],
   "note": ""
  },
  {
   "property": "C25",
   "status": "partial",
   "theorems": [
    "Finch.C25_combine_is_record_all_partial",
    "Finch.C25_minimum_false"
   ],
   "note": "Counts, histograms, maxima and error counts in full. False for the minimum: combining statistics without events of a type sets its minimum to 0 (C25_minimum_false); the partial theorem gives the proviso."
  },
  {
   "property": "C26",
   "status": "partial",
   "theorems": [
    "Finch.C26_copy_equals_source_partial",
    "Finch.C26_copy_counts_equal_source",
    "Finch.C26_copy_false"
   ],
   "note": "False of the code: error codes that the source lacks keep the destination's old counts (C26_copy_false)."
  },
  {
   "property": "C27",
   "status": "partial",
   "theorems": [
    "Finch.C27_list_code_false",
    "Finch.C27_single_percentile",
    "Finch.C27_percentage_is_of_events",
    "Finch.C27_list_partial",
    "Finch.C27_list_false"
   ],
   "note": "One percentile in full, with float64 rounding of the frequency; log and pow are inputs (with the code's: C72_percentage, C27_list_code_false). False for lists (C27_list_false): at most one percentile per bucket is found, so percentiles that share a bucket get the next bucket's value or 0."
  },
  {
   "property": "C28",
   "status": "proved",
   "theorems": [
    "Finch.C28_each_event_once",
    "Finch.C28_at_most_one_lost_per_swap",
    "Finch.C28_nothing_lost_without_race",
    "Finch.C28_final_collection_completes"
   ],
   "note": "Recording one event and reading one buffer are atomic steps of the model."
  },
  {
   "property": "C29",
   "status": "partial",
   "theorems": [
    "Finch.C29_in_range_partial",
    "Finch.C29_in_range_local",
    "Finch.C29_single_remote_false",
    "Finch.C29_interval_numbers"
   ],
   "note": "False for a single remote instance (C29_single_remote_false)."
  },
  {
   "property": "C30",
   "status": "partial",
   "theorems": [
    "Finch.C30_reports_partial",
    "Finch.C30_late_remote_false",
    "Finch.C30_repeated_delivery_false",
    "Finch.C30_past_is_dropped",
    "Finch.C30_no_past_statistics"
   ],
   "note": "False for overlapping or repeated deliveries, each proved; partial for intervals that do not overlap."
  },
  {
   "property": "C31",
   "status": "partial",
   "theorems": [
    "Finch.C31_stop_always_returns_true",
    "Finch.C31_incomplete_but_true",
    "Finch.C31_waits_for_timeout",
    "Finch.C31_early_return_is_complete_partial"
   ],
   "note": "False of the code: Stop always returns true, and with two or more instances it always waits for its timeout unless the local statistics are the last ones."
  },
  {
   "property": "C32",
   "status": "proved",
   "theorems": [
    "Finch.C32_lines_are_statements",
    "Finch.C32_statement_text",
    "Finch.C32_eof",
    "Finch.C32_no_line_lost"
   ],
   "note": "Lines are given as a list (the scanner's 64 KB line limit is not modelled). C32_no_line_lost: nothing is dropped or duplicated."
  },
  {
   "property": "C33",
   "status": "partial",
   "theorems": [
    "Finch.C33_copies_partial",
    "Finch.C33_prepare_once",
    "Finch.C33_copy_number",
    "Finch.C33_one_copy_false",
    "Finch.C33_saved_column_false",
    "Finch.C33_colon_false"
   ],
   "note": "Partial: one copy has copy number 0 (C33_one_copy_false). Also proved: two copies of a statement with a saved column are refused, and a modifier written :copies recurses forever."
  },
  {
   "property": "C34",
   "status": "partial",
   "theorems": [
    "Finch.C34_join_replicate",
    "Finch.C34_later_comment_false",
    "Finch.C34_marker_iff",
    "Finch.C34_no_marker",
    "Finch.C34_csv_rows_partial",
    "Finch.C34_too_many_refused"
   ],
   "note": "False if the query has a later comment end (C34_later_comment_false): the template match is greedy. The partial theorem also carries C35's condition on key names."
  },
  {
   "property": "C35",
   "status": "partial",
   "theorems": [
    "Finch.C35_row_scope_partial",
    "Finch.C35_prefix_keys_false"
   ],
   "note": "False if one key name is the beginning of another (C35_prefix_keys_false). Partial: keys of the template are prefix-free."
  },
  {
   "property": "C36",
   "status": "partial",
   "theorems": [
    "Finch.C36_own_placeholders_partial",
    "Finch.C36_prefix_keys_false",
    "Finch.C36_prev_false",
    "Finch.C36_key_characters"
   ],
   "note": "False if one key name is the beginning of another (depends on map order, C36_prefix_keys_false) and for @PREV (C36_prev_false). Partial: prefix-free keys."
  },
  {
   "property": "C37",
   "status": "proved",
   "theorems": [
    "Finch.C37_values_line_up",
    "Finch.C37_value_function_of_placeholder",
    "Finch.C37_miscounted_values_shift"
   ],
   "note": "Proved for the assignment of generator values to placeholders in client.Run: each placeholder gets the value the generator of that placeholder returned, as far as a generator returns as many values as it has placeholders; a generator returning another number shifts the rest (C37_miscounted_values_shift)."
  },
  {
   "property": "C38",
   "status": "partial",
   "theorems": [
    "Finch.C38_first_word_partial",
    "Finch.C38_any_case",
    "Finch.C38_kind_kept",
    "Finch.C38_select_not_first_false"
   ],
   "note": "Partial: the first word decides; a SELECT after a comment, parenthesis or WITH is not recognised (C38_select_not_first_false)."
  },
  {
   "property": "C39",
   "status": "proved",
   "theorems": [
    "Finch.C39_groups_partition",
    "Finch.C39_rest_unchanged"
   ],
   "note": ""
  },
  {
   "property": "C40",
   "status": "partial",
   "theorems": [
    "Finch.C40_names",
    "Finch.C40_dml_together",
    "Finch.C40_ddl_between",
    "Finch.C40_ddl_once",
    "Finch.C40_ddl_alone_partial",
    "Finch.C40_name_clash_false"
   ],
   "note": "DDL client groups run alone unless a configured group name equals the name generated for a DDL group (C40_name_clash_false shows the clash); clients = iterations = 1 for DDL groups is proved without restriction."
  },
  {
   "property": "C41",
   "status": "proved",
   "theorems": [
    "Finch.C41_auto_assign"
   ],
   "note": ""
  },
  {
   "property": "C42",
   "status": "proved",
   "theorems": [
    "Finch.C42_client_counts",
    "Finch.C42_statements_in_order",
    "Finch.C42_unique_ids"
   ],
   "note": "Hypothesis NoEmptyTrx (every trx has a statement) holds for every loaded trx set (C73)."
  },
  {
   "property": "C43",
   "status": "partial",
   "theorems": [
    "Finch.C43_limits_partial",
    "Finch.C43_counters_shared",
    "Finch.C43_rate_limiters",
    "Finch.C43_large_limit_false"
   ],
   "note": "Shared limits are stored in 32 bits: proved below 2^32; C43_large_limit_false shows 2^32 becomes unlimited. Rate limiters are exactly the tree of C22."
  },
  {
   "property": "C44",
   "status": "partial",
   "theorems": [
    "Finch.C44_iter_limit",
    "Finch.C44_exec_group_limit_partial",
    "Finch.C44_client_group_limit_partial",
    "Finch.C44_exec_group_exact",
    "Finch.C44_client_group_exact",
    "Finch.C44_iter_exact",
    "Finch.C44_largest_limit_false",
    "Finch.C44_client_head"
   ],
   "note": "The atomic counters are uint32 and are incremented once more per client that stops: the limits hold if limit + number of clients < 2^32 (C44_*_partial), and C44_largest_limit_false shows that a limit of 2^32-1 never stops. The limit per client has no such restriction. All interleavings at the granularity of the atomic additions."
  },
  {
   "property": "C45",
   "status": "partial",
   "theorems": [
    "Finch.C45_abort_never_stops_false",
    "Finch.C45_continue",
    "Finch.C45_rollback",
    "Finch.C45_unknown_ddl_stops",
    "Finch.C45_unknown_reconnects",
    "Finch.C45_unknown_next_iteration",
    "Finch.C45_connections_distinct",
    "Finch.C45_default_table_partial"
   ],
   "note": "Continue, rollback, reconnect and DDL handling proved. The claim that errors listed as abort stop the client is false: Eabort is 0, so the test errFlags&Eabort != 0 is never true; those errors reconnect (C45_abort_never_stops_false, C45_default_table_partial)."
  },
  {
   "property": "C46",
   "status": "partial",
   "theorems": [
    "Finch.C46_rollback_before_next_iteration_partial",
    "Finch.C46_last_statement_false"
   ],
   "note": "Proved for statements inside a trx file except the last of a file of several statements, for which the claim is false (C46_last_statement_false): the END mark clears trxActive before the statement is executed. Trx means Finch trx (file), as in the code."
  },
  {
   "property": "C47",
   "status": "partial",
   "theorems": [
    "Finch.C47_executes_on_open_connection",
    "Finch.C47_same_query",
    "Finch.C47_prepared_on_current_connection_partial",
    "Finch.C47_stale_after_reconnect",
    "Finch.C47_reconnect_false",
    "Finch.C47_loaded_client"
   ],
   "note": "For every client and every run: statements run on the connection open then; a prepared statement is used exactly for statements marked so and comes from the same text (for loaded trx). On the current connection: true until a reconnect (partial); after one the code is wrong: statements prepared on the closed first connection are used for ever (C47_stale_after_reconnect, C47_reconnect_false)."
  },
  {
   "property": "C48",
   "status": "partial",
   "theorems": [
    "Finch.C48_recorded_once_partial",
    "Finch.C48_errors_once_partial",
    "Finch.C48_failure_is_counted_partial",
    "Finch.C48_own_trx",
    "Finch.C48_no_idle_first",
    "Finch.C48_allocated_client_partial",
    "Finch.C48_idle_first_false"
   ],
   "note": "For clients whose trx do not begin with idle time: each execution is followed by exactly one record under the trx it comes from, with its class; each failure is counted once unless the context is done. False if a trx begins with idle time (C48_idle_first_false: counted under the previous trx, or a panic)."
  },
  {
   "property": "C49",
   "status": "partial",
   "theorems": [
    "Finch.C49_done_once",
    "Finch.C49_nothing_after_done",
    "Finch.C49_cancelled",
    "Finch.C49_stops_partial",
    "Finch.C49_only_idle_false",
    "Finch.C49_data_limit",
    "Finch.C49_limit_asked"
   ],
   "note": "done exactly once and last; at most one more call after cancellation, which the cancelled context rejects; stops within a bound if some statement is not idle time; the data limit stops at once. False for clients that only sleep (C49_only_idle_false). What database/sql does with a cancelled context is an assumption."
  },
  {
   "property": "C50",
   "status": "partial",
   "theorems": [
    "Finch.C50_sequential_partial",
    "Finch.C50_only_clients",
    "Finch.C50_all_clients_run",
    "Finch.C50_no_deadlock",
    "Finch.C50_no_start_after_cancel",
    "Finch.C50_bounded_after_cancel",
    "Finch.C50_progress_after_cancel",
    "Finch.C50_runtime_false",
    "Finch.C50_late_client_false"
   ],
   "note": "Proved while neither the run nor the stage is cancelled, with progress and bounds after cancellation. False with a stage runtime: when it elapses the next exec group is started at once (C50_runtime_false), and a client that is still running is counted for the next group (C50_late_client_false)."
  },
  {
   "property": "C51",
   "status": "partial",
   "theorems": [
    "Finch.C51_refused",
    "Finch.C51_wrong_state",
    "Finch.C51_order_partial",
    "Finch.C51_new_ready",
    "Finch.C51_stats_partial",
    "Finch.C51_order_false",
    "Finch.C51_stats_false"
   ],
   "note": "Order of states and statistics proved for executions without two overlapping requests of one instance; with overlapping requests (a client that timed out and tried again) both are false (C51_order_false, C51_stats_false). That refused requests change nothing holds in every state."
  },
  {
   "property": "C52",
   "status": "proved",
   "theorems": [
    "Finch.C52_bound",
    "Finch.C52_closed"
   ],
   "note": ""
  },
  {
   "property": "C53",
   "status": "partial",
   "theorems": [
    "Finch.C53_count",
    "Finch.C53_distinct_partial",
    "Finch.C53_released_partial",
    "Finch.C53_distinct_false"
   ],
   "note": "Count of successful acks proved for every execution; that they are from different instances only without overlapping requests of one instance, else false (C53_distinct_false: one instance acknowledges twice)."
  },
  {
   "property": "C54",
   "status": "partial",
   "theorems": [
    "Finch.C54_after_error_false",
    "Finch.C54_never_boots_false",
    "Finch.C54_ack_again_partial",
    "Finch.C54_stale_request_false"
   ],
   "note": "False of the code: after a boot error the instance stays in state booting, GET /boot is refused forever, its place is never freed and the stage never starts (C54_never_boots_false); a stale GET /boot can take a place (C54_stale_request_false). Partial: another POST /boot would be accepted."
  },
  {
   "property": "C55",
   "status": "partial",
   "theorems": [
    "Finch.C55_attempts_bounded",
    "Finch.C55_returns",
    "Finch.C55_success_iff",
    "Finch.C55_same_body_partial",
    "Finch.C55_empty_retry_false",
    "Finch.C55_boot_error_false"
   ],
   "note": "Attempts bounded and success exactly for 200 or 205: proved. Same body: only while nothing of it was sent; false otherwise (C55_empty_retry_false), so that a repeated report of a failed boot is a report of a successful one (C55_boot_error_false). How many bytes the transport takes from the buffer is chosen by the environment."
  },
  {
   "property": "C56",
   "status": "partial",
   "theorems": [
    "Finch.C56_content_partial",
    "Finch.C56_same_name_false",
    "Finch.C56_same_name_error",
    "Finch.C56_local_false",
    "Finch.C56_served"
   ],
   "note": "Proved for files with different base names that the instance does not have. False otherwise (C56_same_name_false, C56_local_false). The server's answer is proved without restriction (C56_served)."
  },
  {
   "property": "C57",
   "status": "partial",
   "theorems": [
    "Finch.C57_ended_not_run",
    "Finch.C57_reset",
    "Finch.C57_unbounded_false",
    "Finch.C57_ends_partial"
   ],
   "note": "False: the timeout has no effect (C57_unbounded_false). Partial: ends when no clients are left. Proved in the server model: after a stage ended no remote begins to run it, a waiting one is told to reset."
  },
  {
   "property": "C58",
   "status": "partial",
   "theorems": [
    "Finch.C58_mysql",
    "Finch.C58_mysql_assoc",
    "Finch.C58_params",
    "Finch.C58_rest_partial",
    "Finch.C58_freq_false",
    "Finch.C58_report_false"
   ],
   "note": "mysql and params exactly; the rest (qps, tps, runtime...) as far as the base file can set it. False for stats: base wins for freq and report (C58_freq_false, C58_report_false)."
  },
  {
   "property": "C59",
   "status": "partial",
   "theorems": [
    "Finch.C59_param_syntax",
    "Finch.C59_param_partial",
    "Finch.C59_no_base_false",
    "Finch.C59_stage_false",
    "Finch.C59_dsn_db"
   ],
   "note": "A command line parameter wins over the base file, if the base file has parameters and the stage file does not set it. False otherwise: without parameters in the base file it is ignored (C59_no_base_false), and the stage file wins over the command line (C59_stage_false). --dsn and --database always win (C59_dsn_db)."
  },
  {
   "property": "C60",
   "status": "partial",
   "theorems": [
    "Finch.C60_sys_env",
    "Finch.C60_braces",
    "Finch.C60_braces_unknown",
    "Finch.C60_dollar_partial",
    "Finch.C60_dollar_unknown",
    "Finch.C60_other_names",
    "Finch.C60_params",
    "Finch.C60_plain",
    "Finch.C60_numbers",
    "Finch.C60_prefix_false",
    "Finch.C60_numbers_false"
   ],
   "note": "Braced references: proved for all texts. Unbraced: for texts in which no reference is a prefix of another one's replacement region; false otherwise (C60_prefix_false). Human numbers are replaced inside words (C60_numbers_false)."
  },
  {
   "property": "C61",
   "status": "proved",
   "theorems": [
    "Finch.C61_accepted_iff",
    "Finch.C61_result",
    "Finch.C61_disabled_unchecked"
   ],
   "note": "Accepted if and only if well formed, for stages that are not disabled; disabled stages are not checked."
  },
  {
   "property": "C62",
   "status": "partial",
   "theorems": [
    "Finch.C62_disabled_run_false",
    "Finch.C62_disabled_panics_false",
    "Finch.C62_enabled_partial",
    "Finch.C62_panics_iff"
   ],
   "note": "False: disabled stages are accepted unchecked and run like others (C62_disabled_run_false), or panic (C62_disabled_panics_false). Partial: stages that are enabled run in order up to the first error."
  },
  {
   "property": "C63",
   "status": "partial",
   "theorems": [
    "Finch.C63_dsn_wins",
    "Finch.C63_precedence_partial",
    "Finch.C63_socket_false",
    "Finch.C63_port_false",
    "Finch.C63_password_false",
    "Finch.C63_colon_false",
    "Finch.C63_host_without_port",
    "Finch.C63_rds_hosts"
   ],
   "note": "What the driver reads from the DSN, for names without the separators of a DSN. False: a socket in my.cnf wins over the hostname of the stage (C63_socket_false), a port without host in my.cnf (C63_port_false), a password file of the base file wins over the password of the stage (C63_password_false), user names with a colon (C63_colon_false). The driver (how it splits a DSN) is not part of the repository and is modelled from its documentation."
  },
  {
   "property": "C64",
   "status": "partial",
   "theorems": [
    "Finch.C64_ignored_false",
    "Finch.C64_required_false",
    "Finch.C64_stage_tls_partial"
   ],
   "note": "False for all inputs: the TLS settings of my.cnf have no effect (C64_ignored_false, C64_required_false). Partial: those of the stage are used."
  },
  {
   "property": "C65",
   "status": "proved",
   "theorems": [
    "Finch.C65_port_kept",
    "Finch.C65_port_added",
    "Finch.C65_has_port",
    "Finch.C65_idempotent",
    "Finch.C65_ipv6_taken_for_port"
   ],
   "note": "Proved. An IPv6 address without brackets is taken to have a port (C65_ipv6_taken_for_port), which is what the pattern in the code says."
  },
  {
   "property": "C66",
   "status": "partial",
   "theorems": [
    "Finch.C66_uniform_never_returns_max",
    "Finch.C66_uniform_never_negative",
    "Finch.C66_uniform_hits_every_value_partial"
   ],
   "note": "False: max is never returned, negative values are never returned."
  },
  {
   "property": "C67",
   "status": "partial",
   "theorems": [
    "Finch.C67_column_not_quoted_by_default",
    "Finch.C67_column_quote_param_partial"
   ],
   "note": "False: not quoted by default."
  },
  {
   "property": "C68",
   "status": "partial",
   "theorems": [
    "Finch.C68_unused_permits_lost_false",
    "Finch.C68_single_client_partial"
   ],
   "note": "False of the code: the goroutine combining a shared limit for an idle client takes permits others need (negation proved)."
  },
  {
   "property": "C69",
   "status": "partial",
   "theorems": [
    "Finch.C69_complete_reports_nonempty_partial",
    "Finch.C69_stop_reports_nothing_false"
   ],
   "note": "False of the code (C69_stop_reports_nothing_false); true of reports that are not forced."
  },
  {
   "property": "C70",
   "status": "proved",
   "theorems": [
    "Finch.C70_collect_combines",
    "Finch.C70_trx_add_up_to_total"
   ],
   "note": ""
  },
  {
   "property": "C71",
   "status": "partial",
   "theorems": [
    "Finch.C71_csv_line_combines",
    "Finch.C71_stdout_first_line_partial",
    "Finch.C71_stdout_counts",
    "Finch.C71_stdout_false"
   ],
   "note": "False on stdout from the second report on (C71_stdout_false), for error counts only; true for CSV."
  },
  {
   "property": "C72",
   "status": "proved",
   "theorems": [
    "Finch.C72_real_bucket_limit",
    "Finch.C72_real_buckets",
    "Finch.C72_bucket_limit",
    "Finch.C72_buckets",
    "Finch.C72_value",
    "Finch.C72_reported",
    "Finch.C72_percentage"
   ],
   "note": "For float64 arithmetic with the code's constants, for any math.Log with an error of at most one unit in the last place (LogSpec), and with Go's math.Pow modelled for integral exponents. Negative latencies (NaN) are not modelled. C72_real_*: over the real numbers for any factor."
  },
  {
   "property": "C73",
   "status": "proved",
   "theorems": [
    "Finch.C73_loaded_keys_exist"
   ],
   "note": ""
  },
  {
   "property": "C74",
   "status": "proved",
   "theorems": [
    "Finch.C74_used_columns_accepted",
    "Finch.C74_saved_columns_used"
   ],
   "note": ""
  },
  {
   "property": "C75",
   "status": "proved",
   "theorems": [
    "Finch.C75_order",
    "Finch.C75_statements_kept"
   ],
   "note": ""
  },
  {
   "property": "C76",
   "status": "partial",
   "theorems": [
    "Finch.C76_ddl_marked",
    "Finch.C76_only_ddl_marked_partial",
    "Finch.C76_removed_ddl_false"
   ],
   "note": "First half proved; second half only for what was written (copies: 0 removes a DDL statement and keeps the mark: C76_removed_ddl_false)."
  },
  {
   "property": "C77",
   "status": "proved",
   "theorems": [
    "Finch.C77_saved_in_order"
   ],
   "note": "Names and order of outputs after the save-columns modifier."
  },
  {
   "property": "C78",
   "status": "partial",
   "theorems": [
    "Finch.C78_cancelled_no_error_partial",
    "Finch.C78_prepare_false",
    "Finch.C78_rollback_false"
   ],
   "note": "True except while preparing and while rolling back, where the code wraps the error with %s and it is reported (C78_prepare_false, C78_rollback_false)."
  },
  {
   "property": "C79",
   "status": "partial",
   "theorems": [
    "Finch.C79_run_counts",
    "Finch.C79_counters_ordered_partial",
    "Finch.C79_generator_values_partial",
    "Finch.C79_idle_first_false"
   ],
   "note": "Counts proved for every client and run. Ordering for trx scope needs a first trx that does not begin with idle time; else false (C79_idle_first_false)."
  },
  {
   "property": "C80",
   "status": "partial",
   "theorems": [
    "Finch.C80_unchecked_false",
    "Finch.C80_valid_iff",
    "Finch.C80_files_used_partial"
   ],
   "note": "False: the check is never called (C80_unchecked_false). Partial: settings that pass the check are used completely."
  },
  {
   "property": "C81",
   "status": "proved",
   "theorems": [
    "Finch.C81_same_dsn",
    "Finch.C81_own_config"
   ],
   "note": ""
  },
  {
   "property": "C82",
   "status": "partial",
   "theorems": [
    "Finch.C82_invalid_dsn_false",
    "Finch.C82_db_slash_false",
    "Finch.C82_settings_partial"
   ],
   "note": "False: an invalid DSN panics (C82_invalid_dsn_false), also a database name with a slash (C82_db_slash_false). Partial: any other settings do not panic."
  },
  {
   "property": "C83",
   "status": "partial",
   "theorems": [
    "Finch.C83_replaced_partial",
    "Finch.C83_undefined",
    "Finch.C83_rest",
    "Finch.C83_forgotten_false",
    "Finch.C83_iter_refused_false"
   ],
   "note": "C83_replaced_partial: the settings other than hostname, socket, iter, iter-clients and iter-exec-group are the interpolation of what was written; C83_undefined: a variable without value is refused; C83_forgotten_false, C83_iter_refused_false: those five settings are never interpolated, and iter settings with a variable are refused. YAML decoding is not modelled."
  },
  {
   "property": "C84",
   "status": "partial",
   "theorems": [
    "Finch.C84_order_partial",
    "Finch.C84_order_false"
   ],
   "note": "C84_order_partial: holds if no param refers to a param. C84_order_false: if a param refers to another one, the result depends on the order of the map."
  },
  {
   "property": "C85",
   "status": "partial",
   "theorems": [
    "Finch.C85_numbers",
    "Finch.C85_listed",
    "Finch.C85_range_partial",
    "Finch.C85_nan_false",
    "Finch.C85_default_refused_false"
   ],
   "note": "Lists as documented with decimal numbers from 0 to 100: proved (C85_listed). Range of accepted values: except NaN, which is accepted (C85_nan_false). The documented P999 is refused (C85_default_refused_false). strconv.ParseFloat is an input; assuming that it rounds decimal numbers correctly, the percentiles in use are the written ones to the precision of float64 (C85_numbers)."
  },
  {
   "property": "C86",
   "status": "partial",
   "theorems": [
    "Finch.C86_csv_partial",
    "Finch.C86_stdout_partial",
    "Finch.C86_csv_comma_false",
    "Finch.C86_stdout_percent_false"
   ],
   "note": "Header and line for every statistics and list of percentiles; for names of instances without comma (CSV), tab or percent sign (stdout), else false (C86_csv_comma_false, C86_stdout_percent_false). The text of floats and float division are inputs; alignment by tabwriter is not modelled."
  },
  {
   "property": "C87",
   "status": "partial",
   "theorems": [
    "Finch.C87_both_set_partial",
    "Finch.C87_default_false",
    "Finch.C87_nothing_false"
   ],
   "note": "As configured if both options are set. The defaults are not the documented ones (C87_default_false, C87_nothing_false)."
  },
  {
   "property": "C88",
   "status": "proved",
   "theorems": [
    "Finch.C88_waits",
    "Finch.C88_number_of_waits",
    "Finch.C88_configured"
   ],
   "note": "Proved for every client and run of the client model."
  },
  {
   "property": "C89",
   "status": "proved",
   "theorems": [
    "Finch.C89_database_set",
    "Finch.C89_use"
   ],
   "note": "Proved for every client and run of the client model."
  },
  {
   "property": "C90",
   "status": "proved",
   "theorems": [
    "Finch.C90_after_execution",
    "Finch.C90_saved_only_after_success"
   ],
   "note": "Proved for every client and run of the client model. That a saved column yields the scanned value is C17."
  },
  {
   "property": "C91",
   "status": "partial",
   "theorems": [
    "Finch.C91_runs_none_partial",
    "Finch.C91_next_stage_false"
   ],
   "note": "That nothing runs is proved. False that every stage is tested with remotes: after a remote joined, no other stage is ever offered (C91_next_stage_false), since cfg.Test is never set and the old stage's run signal is not given."
  },
  {
   "property": "C92",
   "status": "proved",
   "theorems": [
    "Finch.C92_dsn",
    "Finch.C92_settings"
   ],
   "note": "Proved for every user name and password (also in a password file or my.cnf), none of them empty. The driver (ParseDSN) is modelled from its documentation. Debug logging is not covered."
  },
  {
   "property": "C93",
   "status": "proved",
   "theorems": [
    "Finch.C93_protocol",
    "Finch.C93_start",
    "Finch.C93_signal",
    "Finch.C93_failed"
   ],
   "note": "Proved for every run of the model of Client.run; requests are atomic here, retries are C55."
  },
  {
   "property": "C94",
   "status": "partial",
   "theorems": [
    "Finch.C94_reported_partial",
    "Finch.C94_prepare",
    "Finch.C94_silent_false",
    "Finch.C94_run_error_false"
   ],
   "note": "Proved: a failure to prepare the stage is reported, and the end of every run. False for failures before that (no file, no directory, no collector: C94_silent_false, the server waits for ever) and for errors of the run, and the exit status is always 0 (C94_run_error_false)."
  },
  {
   "property": "C95",
   "status": "proved",
   "theorems": [
    "Finch.C95_told",
    "Finch.C95_only",
    "Finch.C95_answer"
   ],
   "note": "Proved for the models of the instance and of the server; how soon is C129. Assumes the instance still belongs to the current stage; the others get 410, which counts as lost."
  },
  {
   "property": "C96",
   "status": "partial",
   "theorems": [
    "Finch.C96_once",
    "Finch.C96_drop",
    "Finch.C96_no_panic",
    "Finch.C96_stop",
    "Finch.C96_values_partial",
    "Finch.C96_values_false"
   ],
   "note": "Order, at-most-once, the drop rule, draining on Stop and absence of panics are proved. The values are proved only if no interval waits when the next one is collected; otherwise a waiting interval is sent with the numbers of a later one, because the queued copy shares the statistics (C96_values_false). Not modelled: the time limit of Stop, the data race while encoding, retries (C55)."
  },
  {
   "property": "C97",
   "status": "partial",
   "theorems": [
    "Finch.C97_prepared_partial",
    "Finch.C97_errors",
    "Finch.C97_global_insert_id_false",
    "Finch.C97_prev_insert_id_false",
    "Finch.C97_saved_again_false"
   ],
   "note": "Proved if no statement saves the insert id in a key with global scope or in @PREV; these crash (C97_global_insert_id_false, C97_prev_insert_id_false). A saved column with stage or global scope cannot be loaded again by a later stage (C97_saved_again_false). Contrary to the documentation of --test, Prepare neither prepares SQL statements nor executes USE for the default database; both are done by Client.Connect (C79, C89)."
  },
  {
   "property": "C98",
   "status": "proved",
   "theorems": [
    "Finch.C98_watched",
    "Finch.C98_collects",
    "Finch.C98_no_collector"
   ],
   "note": "Proved for every stage that Prepare accepts."
  },
  {
   "property": "C99",
   "status": "proved",
   "theorems": [
    "Finch.C99_load",
    "Finch.C99_each",
    "Finch.C99_more"
   ],
   "note": "Proved for maps as references in a memory (Model/Load): the heap program equals the composition of the pure functions of C58, C59, C84 and C61."
  },
  {
   "property": "C100",
   "status": "proved",
   "theorems": [
    "Finch.C100_help",
    "Finch.C100_client",
    "Finch.C100_stages",
    "Finch.C100_profile",
    "Finch.C100_no_file",
    "Finch.C100_end_to_end",
    "Finch.C100_no_panic"
   ],
   "note": "Proved. CTRL-C during a stage that returns no error ends with exit status 0 though later stages are not run. The program crashes if it is started without even its own name as argument (last example in Props/Boot)."
  },
  {
   "property": "C101",
   "status": "partial",
   "theorems": [
    "Finch.C101_start_partial",
    "Finch.C101_end_partial",
    "Finch.C101_order_partial",
    "Finch.C101_lost_false"
   ],
   "note": "Proved for executions in which the requests of one instance do not overlap: responses are lost only after the request was handled, instances may give up at any time, and the server may be stopped while it waits for instances to boot. Otherwise false: an instance that sends POST /boot again while the first one is being handled is counted twice, and runs a stage for which another instance is missing (C101_lost_false). Not covered: the response to GET /run cannot be written. CTRL-C on the server while a stage runs is C126. One process per instance name."
  },
  {
   "property": "C102",
   "status": "proved",
   "theorems": [
    "Finch.C102_completes",
    "Finch.C102_next",
    "Finch.C102_failed"
   ],
   "note": "Proved as a possibility in every reachable state (without losses): from everywhere there is an execution to the end. That it is taken (fairness, time limits) is not modelled. A failure in the meantime blocks the stage (C102_failed), whether it is reported or not."
  },
  {
   "property": "C103",
   "status": "proved",
   "theorems": [
    "Finch.C103_zero_hangs",
    "Finch.C103_zero_false",
    "Finch.C103_zero_remote",
    "Finch.C103_alone"
   ],
   "note": "Proved. That instances: 0 works with the local instance is false (C103_zero_hangs, C103_zero_false): the send of the local ack to a channel without buffer blocks, and is not in a select with the context."
  },
  {
   "property": "C104",
   "status": "proved",
   "theorems": [
    "Finch.C104_existing",
    "Finch.C104_content"
   ],
   "note": "Proved. Writes are assumed to succeed (no full disk) and nobody else changes the files meanwhile."
  },
  {
   "property": "C105",
   "status": "partial",
   "theorems": [
    "Finch.C105_same_file_false",
    "Finch.C105_left_false",
    "Finch.C105_all_partial",
    "Finch.C105_default_name_false"
   ],
   "note": "Proved for stages that name different files, none of which exists. Otherwise false: stages that name the same file (as with csv in the base file _all.yaml) never run to the end (C105_same_file_false); wrong percentiles leave an empty file, because of which the corrected configuration fails as well (C105_left_false); the default name never ends with .csv (C105_default_name_false)."
  },
  {
   "property": "C106",
   "status": "proved",
   "theorems": [
    "Finch.C106_made",
    "Finch.C106_unknown",
    "Finch.C106_register",
    "Finch.C106_remote"
   ],
   "note": "Proved."
  },
  {
   "property": "C107",
   "status": "proved",
   "theorems": [
    "Finch.C107_lines",
    "Finch.C107_fits",
    "Finch.C107_all",
    "Finch.C107_long",
    "Finch.C107_exit",
    "Finch.C107_broken",
    "Finch.C107_unread"
   ],
   "note": "Proved. log.Fatal is the end of the process: a remote instance does not report the error to the server."
  },
  {
   "property": "C108",
   "status": "partial",
   "theorems": [
    "Finch.C108_server_partial",
    "Finch.C108_remote_false"
   ],
   "note": "Proved for the server and the local instance. False for remote instances, which do not look at stats.disable (C108_remote_false)."
  },
  {
   "property": "C109",
   "status": "partial",
   "theorems": [
    "Finch.C109_text_partial",
    "Finch.C109_no_keys",
    "Finch.C109_double_percent",
    "Finch.C109_percent_false",
    "Finch.C109_percent_key_false",
    "Finch.C109_extra_value_false",
    "Finch.C109_nil_false",
    "Finch.C109_quote_false"
   ],
   "note": "Proved for statements without percent sign, with values that are not nil and as many @PREV as the generators have values (and as C36 requires). Otherwise false: the statement is always a format of fmt.Sprintf, so that LIKE 'a%' is sent as LIKE 'a%!'(MISSING), even without any data key (C109_percent_false), or a percent sign takes the value of a key (C109_percent_key_false); an extra value goes to the next key (C109_extra_value_false); an unset or NULL column is sent as <nil> (C109_nil_false); quotes in a column value are not escaped (C109_quote_false). What package fmt does with flags and other verbs is any function."
  },
  {
   "property": "C110",
   "status": "partial",
   "theorems": [
    "Finch.C110_format_stays",
    "Finch.C110_values",
    "Finch.C110_copy",
    "Finch.C110_calls_keep",
    "Finch.C110_at_least_one_partial",
    "Finch.C110_no_values_false",
    "Finch.C110_make",
    "Finch.C110_builtin_names"
   ],
   "note": "Proved, except that a client-id generator with params but without ids is accepted and returns no value (C110_no_values_false)."
  },
  {
   "property": "C111",
   "status": "partial",
   "theorems": [
    "Finch.C111_returns_in_window",
    "Finch.C111_behind_bound",
    "Finch.C111_window_partial",
    "Finch.C111_stage_window_partial",
    "Finch.C111_exec_group_window_partial",
    "Finch.C111_client_group_window_partial",
    "Finch.C111_client_window_partial",
    "Finch.C111_burst_false"
   ],
   "note": "The constant is 3 and two more for each limiter combined with the one in question, at most the number of execution groups, client groups and clients (C111_behind_bound): every combination saves a permit in its goroutine and one in its channel. Partial because a constant independent of the number of clients does not hold: ten permits in one instant for a stage limit of 1 per second (C111_burst_false). The token bucket of golang.org/x/time/rate is modelled from its documentation with exact arithmetic (burst 1, Wait in a loop)."
  },
  {
   "property": "C112",
   "status": "partial",
   "theorems": [
    "Finch.C112_seconds",
    "Finch.C112_times",
    "Finch.C112_seconds_add_up",
    "Finch.C112_text",
    "Finch.C112_rate",
    "Finch.C112_no_time",
    "Finch.C112_csv",
    "Finch.C112_combined_rate_partial",
    "Finch.C112_order_false"
   ],
   "note": "Proved if all instances of a report have the same seconds, for durations of more than 0 ns and less than 2^63 ns, counts up to 2^53 and rates up to 2^62. With different seconds (possible if stats are reported at the end only) the rates are those of all queries in the seconds of the instance that came first (C112_order_false). Without any time the quotient is infinite and its conversion is not defined by Go (C112_no_time)."
  },
  {
   "property": "C113",
   "status": "partial",
   "theorems": [
    "Finch.C113_response_time_partial",
    "Finch.C113_sum",
    "Finch.C113_statistics",
    "Finch.C113_cancelled_false"
   ],
   "note": "Times are inputs of the steps (a clock that does not go back). Partial because a statement that is not executed, since the context was cancelled before or while it ran, is recorded like any other: a stage that ends counts up to one query too many for each client (C113_cancelled_false)."
  },
  {
   "property": "C114",
   "status": "partial",
   "theorems": [
    "Finch.C114_values_partial",
    "Finch.C114_values_do_not_depend_on_others_partial",
    "Finch.C114_value_scope",
    "Finch.C114_same_value_partial",
    "Finch.C114_sent",
    "Finch.C114_placeholders_partial",
    "Finch.C114_prepared",
    "Finch.C114_prepared_same_value_partial",
    "Finch.C114_prepared_sent_partial",
    "Finch.C114_benchmark",
    "Finch.C114_benchmark_same_value_partial",
    "Finch.C114_benchmark_sent_partial"
   ],
   "note": "For all clients that the allocator makes (Staged), for first stages prepared from trx files (C114_prepared...) and for every stage of a benchmark, whose data keys have the same scope in all stages (C114_benchmark...). Value functions of one statement are called in one step. Partial because of known defects: with trx scope a trx must not begin with idle time (C79_idle_first_false), keys of global scope get no generator (C02), and a key that returns fewer or more values than it has places shifts the values after it, so C114_placeholders_partial assumes that the numbers agree (C37). Saved columns are C110, scopes above client C05 and C06."
  },
  {
   "property": "C115",
   "status": "partial",
   "theorems": [
    "Finch.C115_last_saved_partial",
    "Finch.C115_same_value_partial",
    "Finch.C115_own_values_partial",
    "Finch.C115_statement_scope_nil_partial",
    "Finch.C115_copy_holds_nothing",
    "Finch.C115_prepared_last_saved_partial",
    "Finch.C115_prepared_same_value_partial",
    "Finch.C115_prepared_own_values_partial",
    "Finch.C115_no_row_sends_old_value_false",
    "Finch.C115_client_scope_sends_first_value_false",
    "Finch.C115_own_column_sends_old_value_false",
    "Finch.C115_statement_scope_sends_nil_false",
    "Finch.C115_saved_from_sent",
    "Finch.C115_benchmark_last_saved_partial",
    "Finch.C115_benchmark_same_value_partial",
    "Finch.C115_benchmark_own_values_partial"
   ],
   "note": "For every stage of a benchmark: C115_benchmark.... Partial: with trx scope a trx must not begin with idle time (C79_idle_first_false); scopes above client are C05 and C06. False of the code, with witnesses: a trx that reads no row sends the value of an earlier trx, though the comment in client.go says nil (C115_no_row_sends_old_value_false); with client scope the first value is sent for ever (C115_client_scope_sends_first_value_false); a statement that uses the column it saves makes the rest of the trx use the old value (C115_own_column_sends_old_value_false); a column with statement scope is nil in all other statements (C115_statement_scope_nil_partial, C115_statement_scope_sends_nil_false)."
  },
  {
   "property": "C116",
   "status": "partial",
   "theorems": [
    "Finch.C116_prepared_partial",
    "Finch.C116_files_partial",
    "Finch.C116_client_groups",
    "Finch.C116_rates",
    "Finch.C116_ddl_once",
    "Finch.C116_no_workload",
    "Finch.C116_benchmark",
    "Finch.C116_same_name_false"
   ],
   "note": "Partial: the statements of a trx are those of its file only if no two trx of the stage have the same name; such stages are accepted (file names without directory are the default names), the last file is then executed for both and the first never (C116_same_name_false). That preparing succeeds has the insert id exception of C97."
  },
  {
   "property": "C117",
   "status": "partial",
   "theorems": [
    "Finch.C117_same_stage_partial",
    "Finch.C117_fetch",
    "Finch.C117_same_benchmark_partial",
    "Finch.C117_environment_false"
   ],
   "note": "Partial: no two fetched files have the same base name and files that the instance has already are those of the server (C56 is false otherwise); instance and server have the same environment variables and system parameters, because variables in trx files are replaced on the instance (C117_environment_false). JSON encoding of the configuration is not modelled."
  },
  {
   "property": "C118",
   "status": "proved",
   "theorems": [
    "Finch.C118_waits",
    "Finch.C118_bounded",
    "Finch.C118_progress",
    "Finch.C118_ends",
    "Finch.C118_warned",
    "Finch.C118_no_warning",
    "Finch.C118_warnings",
    "Finch.C118_not_before"
   ],
   "note": "Milliseconds are the sleeps of the last wait; starting goroutines and writing the log take no time in the model. The wait for the final statistics is C31."
  },
  {
   "property": "C119",
   "status": "partial",
   "theorems": [
    "Finch.C119_iterations",
    "Finch.C119_idle",
    "Finch.C119_all_iterations",
    "Finch.C119_no_failure",
    "Finch.C119_no_panic_partial",
    "Finch.C119_completes_partial",
    "Finch.C119_sound_partial"
   ],
   "note": "Partial: absence of panics and with it that a client completes are proved for trx files that do not begin with an idle entry; with one, the client can panic (C48_idle_first_false). Order and idle entries are proved for every client and every run. How long a client sleeps or waits is not modelled."
  },
  {
   "property": "C120",
   "status": "partial",
   "theorems": [
    "Finch.C120_modifiers_partial",
    "Finch.C120_limits_partial",
    "Finch.C120_saved_columns_known",
    "Finch.C120_unknown_refused",
    "Finch.C120_extra_words_false",
    "Finch.C120_missing_word_false"
   ],
   "note": "Partial: modifiers with too many words are accepted and the rest is ignored, so that prepare: no prepares and rows: 100 40 rows loses the offset (C120_extra_words_false); rows, idle and copies without a value crash the program (C120_missing_word_false); limits are stated for positive values (for zero see C23). Durations and byte sizes are those of time.ParseDuration and humanize.ParseBytes, which are not modelled. For copies see C33."
  },
  {
   "property": "C121",
   "status": "partial",
   "theorems": [
    "Finch.C121_client_partial",
    "Finch.C121_shared_limit",
    "Finch.C121_shared_ends",
    "Finch.C121_iter_clients",
    "Finch.C121_iter_exec_group",
    "Finch.C121_group_records_partial",
    "Finch.C121_iter_partial",
    "Finch.C121_completes_partial",
    "Finch.C121_statistics_partial",
    "Finch.C121_configured_partial",
    "Finch.C121_exec_group_completes_partial"
   ],
   "note": "Partial: what is recorded is stated for trx files that do not begin with an idle entry, because their statements are attributed to another trx (C48_idle_first_false); and for runs in which no statement failed and no statement has a data limit (for these see C17, C23 and C119). Iterations begun that an error cuts short are counted (C121_shared_limit)."
  },
  {
   "property": "C122",
   "status": "proved",
   "theorems": [
    "Finch.C122_query",
    "Finch.C122_client",
    "Finch.C122_names",
    "Finch.C122_file",
    "Finch.C122_line_breaks",
    "Finch.C122_raw_id"
   ],
   "note": "net/url's QueryEscape and parseQuery are modelled from their source. The id of the stage is not escaped (C122_raw_id); xid ids need no escaping."
  },
  {
   "property": "C123",
   "status": "partial",
   "theorems": [
    "Finch.C123_arrived_partial",
    "Finch.C123_cut_false",
    "Finch.C123_delivered_false",
    "Finch.C123_file_false",
    "Finch.C123_file_partial"
   ],
   "note": "Partial: false of the code. The context of the request is cancelled before the body is read; a body that came with the headers is delivered (C123_arrived_partial), a longer one may end the request with an error that is not retried (C123_cut_false, C123_file_false). That the rest of a body is lost when the transport sees the cancellation is taken from the documentation of net/http."
  },
  {
   "property": "C124",
   "status": "proved",
   "theorems": [
    "Finch.C124_request",
    "Finch.C124_run_wait",
    "Finch.C124_stats",
    "Finch.C124_send_time",
    "Finch.C124_stop",
    "Finch.C124_short_freq_false"
   ],
   "note": "The time between collections is an assumption: with stats.freq it is the frequency, and for the last one at least half of it (stats/collector.go:Stop). For shorter times see C124_short_freq_false and C96."
  },
  {
   "property": "C125",
   "status": "partial",
   "theorems": [
    "Finch.C125_once",
    "Finch.C125_tail_partial",
    "Finch.C125_no_freq",
    "Finch.C125_all_false",
    "Finch.C125_remote_false"
   ],
   "note": "Partial: false of the code. If the stage ends less than half of stats.freq after the last periodic report, Stop does not collect again and what was recorded since is in no report, though Stop returns true (C125_all_false, for several instances C125_remote_false): up to 2.5 s with the frequency of 5 s. Everything before that is reported once (C125_once, C125_tail_partial); without a frequency everything is (C125_no_freq)."
  },
  {
   "property": "C126",
   "status": "partial",
   "theorems": [
    "Finch.C126_hangs",
    "Finch.C126_returns_false",
    "Finch.C126_ping",
    "Finch.C126_ping_cancels",
    "Finch.C126_run",
    "Finch.C126_leaves_partial"
   ],
   "note": "Partial: false of the code. An instance that asks to run (GET /run) after the interrupt is told to reset and leaves the stage without an acknowledgement, for which the server then waits (C126_run, C126_returns_false, C126_hangs); the process is ended by the exit 7.5 s after CTRL-C, which is not modelled. If all instances that did not report yet are running, the server can leave the stage when they report (C126_leaves_partial); each is told at its next ping (C126_ping) and stops its stage (C126_ping_cancels)."
  },
  {
   "property": "C127",
   "status": "proved",
   "theorems": [
    "Finch.C127_any",
    "Finch.C127_json",
    "Finch.C127_typed",
    "Finch.C127_stage",
    "Finch.C127_stats",
    "Finch.C127_bytes_false",
    "Finch.C127_conf"
   ],
   "note": "encoding/json (Go 1.20) is modelled from its source: escaping, UTF-8, numbers, the decoder with its matching of keys to fields. The text of a float is any valid number and is compared as text. Bytes that are not UTF-8 (possible in --dsn) do not arrive as they are (C127_bytes_false); all other values do (C127_stage, C127_stats). C127_conf is about the configuration as in the other theorems (C116, C117): what is decoded is the encoding of it and of no other."
  },
  {
   "property": "C128",
   "status": "proved",
   "theorems": [
    "Finch.C128_stage",
    "Finch.C128_collector",
    "Finch.C128_ends",
    "Finch.C128_local",
    "Finch.C128_remote",
    "Finch.C128_request"
   ],
   "note": "Delays of timers, and the time for printing and for the ticker to stop, are limited by hypotheses of C128_local and C128_remote. C128_local is about the instance of the server and a server without remote instances; a server with remote instances also waits for them (C126), and then the forced exit is what ends it (C128_ends). Preparing a stage is not covered."
  },
  {
   "property": "C129",
   "status": "proved",
   "theorems": [
    "Finch.C129_cancelled",
    "Finch.C129_ended",
    "Finch.C129_goes_on"
   ],
   "note": "Delays of timers, and the time for printing and for the ticker to stop, are limited by a hypothesis of C129_ended. Attempts end with the timeout of the HTTP client (net/http). A server that refuses connections for half a second counts as lost (example)."
  },
  {
   "property": "C130",
   "status": "proved",
   "theorems": [
    "Finch.C130_ends",
    "Finch.C130_complete",
    "Finch.C130_in_order",
    "Finch.C130_unconnected"
   ],
   "note": "For runs without a runtime limit and without CTRL-C; these are C50, C102 and C128. The end theorem is for schedules in which everybody gets a turn again and again (the Go scheduler and the database are fair) and connections can be made again and again (a client tries without end, so without connections the stage does not end: C130_unconnected); completeness and order hold in all schedules. Shared limits plus the number of clients are below 2^32. Trx files that begin with an idle entry are excluded from completeness, they make a client panic (C119)."
  },
  {
   "property": "C131",
   "status": "proved",
   "theorems": [
    "Finch.C131_ends",
    "Finch.C131_loaded",
    "Finch.C131_overshoot",
    "Finch.C131_not_before",
    "Finch.C131_more",
    "Finch.C131_affected"
   ],
   "note": "For runs without a runtime limit and without CTRL-C. The number of rows an execution affects is an input, at most R. Row limits and R times the number of clients are below 2^61, so that counters cannot overflow; rows: 0 (nil limit) is C23. What size limits answer is an input. Trx files that begin with an idle entry are excluded where completeness is claimed, they make a client panic (C119)."
  },
  {
   "property": "C132",
   "status": "partial",
   "theorems": [
    "Finch.C132_keys",
    "Finch.C132_configured",
    "Finch.C132_columns",
    "Finch.C132_scope",
    "Finch.C132_generator_partial",
    "Finch.C132_other_generator_false",
    "Finch.C132_stages",
    "Finch.C132_next_stage_false"
   ],
   "note": "Partial: false of the generator when two trx configure different generators for the same key. Validate compares only the scopes, so this is accepted, and both use the generator of the trx that is loaded first (C132_other_generator_false). Proved when all trx that configure the key agree (C132_generator_partial); for the scope without this hypothesis (C132_scope). Whatever generator is configured for a saved column, the column generator is used. A key with stage or global scope stays for later stages, which then use its generator instead of the one they configure (C132_next_stage_false); all other keys are of the stage itself (C132_stages). Formats of generators are an input (data.Make)."
  },
  {
   "property": "C133",
   "status": "partial",
   "theorems": [
    "Finch.C133_table_partial",
    "Finch.C133_bars",
    "Finch.C133_read_back",
    "Finch.C133_values_partial",
    "Finch.C133_lines",
    "Finch.C133_names_false"
   ],
   "note": "Partial: false for names of instances with a newline, tab or bar (C133_names_false); a percent sign is C86. Proved for other names. text/tabwriter is modelled from its documentation and source, which are not in this sandbox: every character has width 1, no vertical tabs and form feeds, writes do not fail. How a float looks and that the list of percentile values is as long as that of the percentiles are hypotheses as in C86. Errors of the combined line are an input here."
  },
  {
   "property": "C134",
   "status": "partial",
   "theorems": [
    "Finch.C134_rows",
    "Finch.C134_size",
    "Finch.C134_few",
    "Finch.C134_sums",
    "Finch.C134_eta_partial",
    "Finch.C134_rows_eta_partial",
    "Finch.C134_size_eta_partial",
    "Finch.C134_limit",
    "Finch.C134_started",
    "Finch.C134_size_eta_false",
    "Finch.C134_rows_eta_false"
   ],
   "note": "Partial: the time that is left is false when the maximum is exceeded. For sizes, lm.max-bytes is a difference of uint64 and the line tells years (C134_size_eta_false); for rows it is negative (C134_rows_eta_false). Proved when it is not exceeded, something was written in some time, and it takes less than 292 years. Floats are exact in this model, and the two times that a line takes are one."
  },
  {
   "property": "C135",
   "status": "partial",
   "theorems": [
    "Finch.C135_percentile_partial",
    "Finch.C135_combined_partial",
    "Finch.C135_rounding_false",
    "Finch.C135_option",
    "Finch.C135_combined_exact",
    "Finch.C135_exact",
    "Finch.C135_exact_for"
   ],
   "note": "Partial: false at the exact percentage, since n/N*100 is rounded: with 57 of 100 events at 20 us and the others at one second, P57 is about one second (C135_rounding_false). Proved exactly for up to 2^40 events for the default percentile 99.9 and all whole percentiles except 29, 57 and 58 (C135_exact, C135_exact_for, for several clients C135_combined_exact), and for every percentile to 300/2^53. The same from the text of the option (C135_option). One percentile at a time (lists: C27)."
  },
  {
   "property": "C136",
   "status": "partial",
   "theorems": [
    "Finch.C136_too_long",
    "Finch.C136_setting_too_long",
    "Finch.C136_parts_partial",
    "Finch.C136_only",
    "Finch.C136_setting_partial",
    "Finch.C136_runtime",
    "Finch.C136_wrap_false",
    "Finch.C136_idle_partial",
    "Finch.C136_idle_zero_false"
   ],
   "note": "time.ParseDuration is modelled from the source of Go 1.20. Partial: each part at most 2^63-2 ns; a part of 2^63+2 ns or more is refused (C136_too_long, C136_setting_too_long); the sum is computed with 64 bits, and two parts of 2^63 ns are accepted as zero (C136_wrap_false). That nothing else is accepted is proved for every text (C136_only, C136_runtime). Idle times may be zero or negative: zero executes the statement (C136_idle_zero_false)."
  },
  {
   "property": "C137",
   "status": "partial",
   "theorems": [
    "Finch.C137_limit_partial",
    "Finch.C137_size_partial",
    "Finch.C137_only",
    "Finch.C137_comma_false"
   ],
   "note": "humanize.ParseBytes is modelled from the source of go-humanize. Partial: commas are ignored wherever they are, so that 1,5GB is 15 GB (C137_comma_false); sizes within one part in 2^51 of 2^64 bytes may be accepted or refused, by rounding. That nothing else is accepted is proved for every text (C137_only)."
  }
 ]
}