{
 "claims": [
  {
   "property": "C01",
   "status": "proved",
   "theorems": [
    "Scouter.C01_decimal_roundtrip",
    "Scouter.C01_decimal32_roundtrip",
    "Scouter.C01_decimal_shortest",
    "Scouter.C01_decimal32_shortest",
    "Scouter.C01_collector_reads_decimal",
    "Scouter.C01_any_width",
    "Scouter.C01_no_width",
    "Scouter.C01_truncated"
   ],
   "note": ""
  },
  {
   "property": "C02",
   "status": "proved",
   "theorems": [
    "Scouter.C02_written_big_endian",
    "Scouter.C02_read_back",
    "Scouter.C02_short_input"
   ],
   "note": ""
  },
  {
   "property": "C03",
   "status": "proved",
   "theorems": [
    "Scouter.C03_blob_roundtrip",
    "Scouter.C03_blob_window_panics",
    "Scouter.C03_collector_reads_blob"
   ],
   "note": "The round trip fails exactly in the window 32768..65535 (proved: panic); outside it and for collectors it holds."
  },
  {
   "property": "C04",
   "status": "proved",
   "theorems": [
    "Scouter.C04_string_roundtrip",
    "Scouter.C04_huge_string",
    "Scouter.C04_window_and_collector"
   ],
   "note": ""
  },
  {
   "property": "C05",
   "status": "proved",
   "theorems": [
    "Scouter.C05_value_roundtrip",
    "Scouter.C05_plain_value_roundtrip",
    "Scouter.C05_collector_reads_value"
   ],
   "note": ""
  },
  {
   "property": "C06",
   "status": "proved",
   "theorems": [
    "Scouter.C06_ip4_never_read_back",
    "Scouter.C06_ip4_leading_zero",
    "Scouter.C06_ip4_small_first_byte",
    "Scouter.C06_collector_reads_ip4"
   ],
   "note": "The property is false of the code: refuted for every address; exact results for first bytes 0..3."
  },
  {
   "property": "C07",
   "status": "proved",
   "theorems": [
    "Scouter.C07_reads_stay_inside",
    "Scouter.C07_depth_bounded_by_input",
    "Scouter.C07_panic_needs_negative_length"
   ],
   "note": ""
  },
  {
   "property": "C08",
   "status": "proved",
   "theorems": [
    "Scouter.C08_size_is_length",
    "Scouter.C08_size_exact",
    "Scouter.C08_append_only"
   ],
   "note": ""
  },
  {
   "property": "C09",
   "status": "proved",
   "theorems": [
    "Scouter.C09_map_pack_roundtrip",
    "Scouter.C09_counter_pack_roundtrip",
    "Scouter.C09_counter_pack_needs_a_map",
    "Scouter.C09_object2_pack_roundtrip",
    "Scouter.C09_object_pack_own_read",
    "Scouter.C09_counterK8S_own_read",
    "Scouter.C09_unchanged"
   ],
   "note": ""
  },
  {
   "property": "C10",
   "status": "proved",
   "theorems": [
    "Scouter.C10_registration_not_readable"
   ],
   "note": "The property is false of the code: refuted for every registration whose type name is longer than four bytes."
  },
  {
   "property": "C100",
   "status": "proved",
   "theorems": [
    "Scouter.C100_no_dangling",
    "Scouter.C100_in_any_life",
    "Scouter.C100_after_a_reset",
    "Scouter.C100_after_a_reset_call",
    "Scouter.C100_error_not_announced_again"
   ],
   "note": ""
  },
  {
   "property": "C101",
   "status": "proved",
   "theorems": [
    "Scouter.C101_as_if_alone",
    "Scouter.C101_each_is_a_history",
    "Scouter.C101_nothing_lost",
    "Scouter.C101_finishes",
    "Scouter.C101_at_most_one_log",
    "Scouter.C101_exactly_one_log_without_sampling",
    "Scouter.C101_no_dangling"
   ],
   "note": ""
  },
  {
   "property": "C102",
   "status": "proved",
   "theorems": [
    "Scouter.C102_lists_only_services_that_run",
    "Scouter.C102_ended_is_not_listed",
    "Scouter.C102_running_is_listed",
    "Scouter.C102_size_is_exact"
   ],
   "note": ""
  },
  {
   "property": "C103",
   "status": "proved",
   "theorems": [
    "Scouter.C103_each_number_once",
    "Scouter.C103_all_calls_served",
    "Scouter.C103_not_negative",
    "Scouter.C103_never_blocks",
    "Scouter.C103_same_second_same_ids"
   ],
   "note": ""
  },
  {
   "property": "C104",
   "status": "proved",
   "theorems": [
    "Scouter.C104_panics_only_on_holes",
    "Scouter.C104_received_values_can_be_shown",
    "Scouter.C104_put_makes_no_holes",
    "Scouter.C104_everything_inside_is_shown",
    "Scouter.C104_numbers_read_back",
    "Scouter.C104_list_in_order",
    "Scouter.C104_order_of_iteration",
    "Scouter.C104_packs",
    "Scouter.C104_misspelt"
   ],
   "note": ""
  },
  {
   "property": "C105",
   "status": "proved",
   "theorems": [
    "Scouter.C105_goroutine_number",
    "Scouter.C105_never_crashes_once_registered",
    "Scouter.C105_crashes_before_registration",
    "Scouter.C105_stack_lines"
   ],
   "note": ""
  },
  {
   "property": "C106",
   "status": "proved",
   "theorems": [
    "Scouter.Accesses.C106_maps_are_safe",
    "Scouter.Accesses.C106_what_can_race"
   ],
   "note": "sync.Once is not modelled; accesses are sequentially consistent (a race is a state, its outcome under Go's memory model is not modelled). The libraries gods (linkedhashmap, linkedhashset) and container/list are modelled by the accesses their functions make."
  },
  {
   "property": "C107",
   "status": "proved",
   "theorems": [
    "Scouter.C107_everything_has_a_name",
    "Scouter.C107_no_wrong_text",
    "Scouter.C107_service_at_collector",
    "Scouter.C107_profile_in_order",
    "Scouter.C107_story_at_collector",
    "Scouter.C107_service_at_collector_however_ended",
    "Scouter.C107_life_at_collector"
   ],
   "note": "The collector is specified (Spec/Collector, Spec/Network), not modelled from code: the collector is another program. The announcing calls are those of the sequential histories of Trace; the queue they go through is any reachable state of the queue model that accepted them all."
  },
  {
   "property": "C108",
   "status": "proved",
   "theorems": [
    "Scouter.Deferring.C108_application_unchanged",
    "Scouter.Deferring.C108_no_false_alert",
    "Scouter.Deferring.C108_agent_panic_reported",
    "Scouter.Deferring.C108_goroutine",
    "Scouter.Deferring.C108_final_handler_has_no_effect",
    "Scouter.Deferring.C108_before_registration",
    "Scouter.Deferring.C108_callback_panic_taken",
    "Scouter.Deferring.C108_counter_round"
   ],
   "note": "The bodies of the API functions are any programs that do not call recover themselves (in the source only the two handlers do); their detailed behaviour is in Trace. Goexit, panic(nil) and runs without end are not in the language."
  },
  {
   "property": "C109",
   "status": "proved",
   "theorems": [
    "Scouter.Bounded.C109_tables_and_buffers",
    "Scouter.Bounded.C109_tables_under_any_schedule",
    "Scouter.Bounded.C109_meters"
   ],
   "note": ""
  },
  {
   "property": "C11",
   "status": "proved",
   "theorems": [
    "Scouter.C11_collector_reads_xlog",
    "Scouter.C11_same_bytes_same_fields"
   ],
   "note": ""
  },
  {
   "property": "C110",
   "status": "proved",
   "theorems": [
    "Scouter.Failing.C110_listing",
    "Scouter.Failing.C110_binary_listing",
    "Scouter.Failing.C110_download",
    "Scouter.Failing.C110_stream",
    "Scouter.Failing.C110_thread_dump",
    "Scouter.Failing.C110_save",
    "Scouter.Failing.C110_half_a_configuration",
    "Scouter.Failing.C110_pieces",
    "Scouter.Failing.C110_without_failures"
   ],
   "note": ""
  },
  {
   "property": "C111",
   "status": "proved",
   "theorems": [
    "Scouter.Propagation.C111_added",
    "Scouter.Propagation.C111_no_request",
    "Scouter.Propagation.C111_no_headers",
    "Scouter.Propagation.C111_first_stays",
    "Scouter.Propagation.C111_one_value_per_call"
   ],
   "note": ""
  },
  {
   "property": "C112",
   "status": "proved",
   "theorems": [
    "Scouter.Floating.C112_rounding",
    "Scouter.Floating.C112_throughput",
    "Scouter.Floating.C112_throughput_grows",
    "Scouter.Floating.C112_error_rate",
    "Scouter.Floating.C112_not_all_failed",
    "Scouter.Floating.C112_error_rate_grows",
    "Scouter.Floating.C112_all_failed_but_one",
    "Scouter.Floating.C112_sums",
    "Scouter.Floating.C112_average",
    "Scouter.Floating.C112_gc_rates",
    "Scouter.Floating.C112_gc_clock_stands",
    "Scouter.Floating.C112_gc_clock_back",
    "Scouter.Floating.C112_error_rate_any_clock",
    "Scouter.Floating.C112_real_time_figures",
    "Scouter.Floating.C112_five_minute_figures"
   ],
   "note": ""
  },
  {
   "property": "C113",
   "status": "proved",
   "theorems": [
    "Scouter.Floating.C113_text",
    "Scouter.Floating.C113_text_single",
    "Scouter.Floating.C113_no_numbers",
    "Scouter.Floating.C113_texts_in_order",
    "Scouter.Floating.C113_round_up",
    "Scouter.Floating.C113_rounds_too_far",
    "Scouter.Floating.C113_round_up_negative"
   ],
   "note": ""
  },
  {
   "property": "C114",
   "status": "proved",
   "theorems": [
    "Scouter.ConcurrentValue.C114_readings_are_fair",
    "Scouter.ConcurrentValue.C114_undisturbed_reading",
    "Scouter.ConcurrentValue.C114_average_never_above_largest",
    "Scouter.ConcurrentValue.C114_recorder_reads_exactly",
    "Scouter.ConcurrentValue.C114_every_value_recorded_once",
    "Scouter.ConcurrentValue.C114_no_deadlock",
    "Scouter.ConcurrentValue.C114_all_calls_can_end",
    "Scouter.ConcurrentValue.C114_torn_reading",
    "Scouter.ConcurrentValue.C114_slow_recording_misplaced"
   ],
   "note": ""
  },
  {
   "property": "C115",
   "status": "proved",
   "theorems": [
    "Scouter.Counting.C115_total",
    "Scouter.Counting.C115_colours",
    "Scouter.Counting.C115_stuck",
    "Scouter.Counting.C115_more_than_ever_ran"
   ],
   "note": ""
  },
  {
   "property": "C116",
   "status": "proved",
   "theorems": [
    "Scouter.C116_after_the_end_however_ended",
    "Scouter.C116_late_steps",
    "C116_stream",
    "C116_after_the_end"
   ],
   "note": ""
  },
  {
   "property": "C117",
   "status": "proved",
   "theorems": [
    "Scouter.C117_options_govern_tracing",
    "Scouter.C117_options_govern_sender",
    "Scouter.C117_documented",
    "Scouter.C117_show_error_without_effect",
    "Scouter.Program.C117_governed",
    "Scouter.Program.C117_refresh_puts_into_effect"
   ],
   "note": ""
  },
  {
   "property": "C118",
   "status": "proved",
   "theorems": [
    "Scouter.C118_http_client_address",
    "Scouter.C118_given_address",
    "Scouter.C118_bracketed_address_unknown",
    "Scouter.C118_list_of_addresses_unknown",
    "Scouter.C118_header_is_believed",
    "Scouter.C118_shown_decided"
   ],
   "note": ""
  },
  {
   "property": "C119",
   "status": "proved",
   "theorems": [
    "Scouter.C119_stuck_services_are_told",
    "Scouter.C119_stuck_profile_complete",
    "Scouter.C119_stuck_log_has_error",
    "Scouter.C119_stuck_log_at_collector",
    "Scouter.C119_stuck_profile_at_collector"
   ],
   "note": ""
  },
  {
   "property": "C12",
   "status": "proved",
   "theorems": [
    "Scouter.C12_collector_reads_pack"
   ],
   "note": ""
  },
  {
   "property": "C120",
   "status": "proved",
   "theorems": [
    "Scouter.Sweeping.C120_without_calls_as_at_once",
    "Scouter.Sweeping.C120_at_most_one_log",
    "Scouter.Sweeping.C120_running_are_taken",
    "Scouter.Sweeping.C120_counted_exactly_once",
    "Scouter.Sweeping.C120_each_look",
    "Scouter.Sweeping.C120_ended_stays_ended",
    "Scouter.Sweeping.C120_each_listed_is_counted"
   ],
   "note": ""
  },
  {
   "property": "C121",
   "status": "proved",
   "theorems": [
    "Scouter.Identity.C121_what_is_told",
    "Scouter.Identity.C121_between_loads",
    "Scouter.Identity.C121_same_again",
    "Scouter.Identity.C121_same_length",
    "Scouter.Identity.C121_cut_or_overrun",
    "Scouter.Identity.C121_host",
    "Scouter.Identity.C121_never_back",
    "Scouter.Identity.C121_session_goes_on",
    "Scouter.Identity.C121_session_ends",
    "Scouter.Identity.C121_torn_counters",
    "Scouter.Identity.C121_torn_object",
    "Scouter.Identity.C121_torn_address",
    "Scouter.Identity.C121_cut_name"
   ],
   "note": "Reads and writes of single words are sequentially consistent; the order of the two words of a string (the compiler's choice) is quantified over. What lies behind the bytes of a string is any memory, and reading it does not fault (on a machine it may). What a load assigns is any strings; how they come from the file is C47, C48, C63, C117."
  },
  {
   "property": "C122",
   "status": "proved",
   "theorems": [
    "Scouter.Disclosed.C122_what_is_recorded",
    "Scouter.Disclosed.C122_between_loads",
    "Scouter.Disclosed.C122_same_again",
    "Scouter.Disclosed.C122_off",
    "Scouter.Disclosed.C122_named_before",
    "Scouter.Disclosed.C122_client_address",
    "Scouter.Disclosed.C122_all_disclosed",
    "Scouter.Disclosed.C122_all_disclosed_at_the_end"
   ],
   "note": "As for C121: single words are sequentially consistent, the order of the two words of a text is quantified over, and what lies behind the bytes of a text is any memory. Reads of branches not taken are made and ignored. What becomes of the lines is C74, of the address C118."
  },
  {
   "property": "C123",
   "status": "proved",
   "theorems": [
    "Scouter.Looking.C123_what_a_look_comes_to",
    "Scouter.Looking.C123_between_loads",
    "Scouter.Looking.C123_one_option",
    "Scouter.Looking.C123_needs_a_reason",
    "Scouter.Looking.C123_ended_for_nothing",
    "Scouter.Looking.C123_ended_too_early",
    "Scouter.Looking.C123_as_looked_at"
   ],
   "note": "What else a look does (the step, the log, the alert's text) is C36, C119 and C120, where the options do not change during a look. Single reads and writes are sequentially consistent; reads of branches not taken are made and ignored."
  },
  {
   "property": "C13",
   "status": "proved",
   "theorems": [
    "Scouter.C13_profile_decodes",
    "Scouter.C13_denotes"
   ],
   "note": ""
  },
  {
   "property": "C14",
   "status": "proved",
   "theorems": [
    "Scouter.C14_params_recovered",
    "Scouter.C14_params_in_profile",
    "Scouter.C14_etx_splits"
   ],
   "note": ""
  },
  {
   "property": "C15",
   "status": "proved",
   "theorems": [
    "Scouter.C15_map_pack_get",
    "Scouter.C15_map_value_get",
    "Scouter.C15_counter_pack_get",
    "Scouter.C15_unsupported_put",
    "Scouter.C15_setStatus_does_nothing"
   ],
   "note": ""
  },
  {
   "property": "C16",
   "status": "proved",
   "theorems": [
    "Scouter.C16_hash_is_crc32",
    "Scouter.C16_hash_empty"
   ],
   "note": ""
  },
  {
   "property": "C17",
   "status": "proved",
   "theorems": [
    "Scouter.C17_window_change_changes_hash",
    "Scouter.C17_collisions_exist"
   ],
   "note": ""
  },
  {
   "property": "C18",
   "status": "proved",
   "theorems": [
    "Scouter.C18_ip_text_parses",
    "Scouter.C18_other_text_is_zero",
    "Scouter.C18_ip_always_four_bytes",
    "Scouter.C18_ip_text_unambiguous"
   ],
   "note": ""
  },
  {
   "property": "C19",
   "status": "proved",
   "theorems": [
    "Scouter.C19_empty_target_rejected",
    "Scouter.C19_simple_patterns_exact",
    "Scouter.C19_prefix_suffix_pattern",
    "Scouter.C19_prefix_middle_pattern",
    "Scouter.C19_middle_suffix_pattern",
    "Scouter.C19_middle_middle_pattern",
    "Scouter.C19_wildcard_implies_accepted",
    "Scouter.C19_overlap_false_positives",
    "Scouter.C19_two_inner_stars_unsupported"
   ],
   "note": ""
  },
  {
   "property": "C20",
   "status": "proved",
   "theorems": [
    "Scouter.C20_chained_matcher_never_matches",
    "Scouter.C20_selection_fails"
   ],
   "note": ""
  },
  {
   "property": "C21",
   "status": "proved",
   "theorems": [
    "Scouter.C21_txid_text_reads_back",
    "Scouter.C21_txid_text_injective",
    "Scouter.C21_txid_text_prefix"
   ],
   "note": ""
  },
  {
   "property": "C22",
   "status": "proved",
   "theorems": [
    "Scouter.C22_duration_recombines",
    "Scouter.C22_decimal_text_reads_back"
   ],
   "note": ""
  },
  {
   "property": "C23",
   "status": "proved",
   "theorems": [
    "Scouter.C23_cache_is_insertion_ordered_map",
    "Scouter.C23_get_returns_last_added",
    "Scouter.C23_size_after_add"
   ],
   "note": ""
  },
  {
   "property": "C24",
   "status": "proved",
   "theorems": [
    "Scouter.C24_never_exceeds_bound",
    "Scouter.C24_index_and_list_agree",
    "Scouter.C24_unbounded_keeps_everything"
   ],
   "note": ""
  },
  {
   "property": "C25",
   "status": "proved",
   "theorems": [
    "Scouter.C25_callback_log_is_departures",
    "Scouter.C25_each_insertion_reported_once",
    "Scouter.C25_remove_reports_current_value"
   ],
   "note": ""
  },
  {
   "property": "C26",
   "status": "proved",
   "theorems": [
    "Scouter.C26_map_bounded_and_distinct",
    "Scouter.C26_map_add",
    "Scouter.C26_map_first_value_kept",
    "Scouter.C26_map_nonpositive_bound_panics",
    "Scouter.C26_set_behaviour",
    "Scouter.C26_set_nonpositive_bound_panics"
   ],
   "note": ""
  },
  {
   "property": "C27",
   "status": "proved",
   "theorems": [
    "Scouter.C27_bounded_and_tracked",
    "Scouter.C27_nonpositive_bound_loops",
    "Scouter.C27_size_wrong_after_remove",
    "Scouter.C27_readded_key_evicted_early"
   ],
   "note": ""
  },
  {
   "property": "C28",
   "status": "proved",
   "theorems": [
    "Scouter.C28_no_deadlock_without_empty",
    "Scouter.C28_schedules_are_bounded",
    "Scouter.C28_writer_excludes_readers",
    "Scouter.C28_empty_can_deadlock"
   ],
   "note": ""
  },
  {
   "property": "C29",
   "status": "proved",
   "theorems": [
    "Scouter.C29_fragments",
    "Scouter.C29_reassembly",
    "Scouter.C29_zero_max_panics",
    "Scouter.C29_negative_max_loses",
    "Scouter.C29_small",
    "Scouter.C29_unconnected"
   ],
   "note": ""
  },
  {
   "property": "C30",
   "status": "proved",
   "theorems": [
    "Scouter.C30_batches",
    "Scouter.C30_collector_gets_all",
    "Scouter.C30_limits"
   ],
   "note": ""
  },
  {
   "property": "C31",
   "status": "proved",
   "theorems": [
    "Scouter.C31_packs_reach_collector",
    "Scouter.C31_queue_bounded",
    "Scouter.C31_add",
    "Scouter.C31_sender_never_blocks",
    "Scouter.C31_exactly_once_in_order",
    "Scouter.C31_queue_size_zero",
    "Scouter.C31_eventually_delivered",
    "Scouter.C31_calls_fit"
   ],
   "note": ""
  },
  {
   "property": "C32",
   "status": "proved",
   "theorems": [
    "Scouter.C32_announcements",
    "Scouter.C32_returns_hash",
    "Scouter.C32_not_repeated",
    "Scouter.C32_reset_announces_again",
    "Scouter.C32_full_queue_loses_announcement",
    "Scouter.C32_collision_not_announced"
   ],
   "note": ""
  },
  {
   "property": "C33",
   "status": "proved",
   "theorems": [
    "Scouter.C33_numbering_is_the_tree",
    "Scouter.C33_balanced_segment",
    "Scouter.C33_every_step_recorded_once",
    "Scouter.C33_indexes_sequential",
    "Scouter.C33_second_root_looks_like_a_child"
   ],
   "note": ""
  },
  {
   "property": "C34",
   "status": "proved",
   "theorems": [
    "Scouter.C34_service_profile_complete",
    "Scouter.C34_service_profile_complete_however_ended",
    "Scouter.C34_slices",
    "Scouter.C34_all_sent_in_order",
    "Scouter.C34_discard_keeps_back_less_than_a_buffer",
    "Scouter.C34_limits_needed",
    "Scouter.C34_negative_limit_loses_steps"
   ],
   "note": ""
  },
  {
   "property": "C35",
   "status": "proved",
   "theorems": [
    "Scouter.C35_log_states_steps_sent_earlier",
    "Scouter.C35_log_undercounts_by_the_buffer",
    "Scouter.C35_small_service_logs_zero",
    "Scouter.C35_fails",
    "Scouter.C35_log_states_steps_sent_earlier_however_ended"
   ],
   "note": "The property is false of the code: the log undercounts by exactly the buffered steps (proved), 0 for a service whose steps fit the buffer; refuted by a witness."
  },
  {
   "property": "C36",
   "status": "proved",
   "theorems": [
    "Scouter.Handlers.C36_once_in_any_life",
    "Scouter.C36_either_end_ends",
    "Scouter.C36_at_most_one_log",
    "Scouter.C36_counted_exactly_once",
    "Scouter.C36_never_over_counted",
    "Scouter.C36_exactly_one_log_without_sampling",
    "Scouter.C36_end_ends",
    "Scouter.C36_end_of_ended_service_is_inert"
   ],
   "note": ""
  },
  {
   "property": "C37",
   "status": "proved",
   "theorems": [
    "Scouter.C37_at_most_one_log_per_ender",
    "Scouter.C37_at_least_one_log",
    "Scouter.C37_duplicates_are_possible",
    "Scouter.C37_serialised_ends_log_once"
   ],
   "note": "The English claim is false of the code; what is proved is the refutation (any number of enders can log that often), the upper and lower bounds over all interleavings, and that serialised ends log once. The rest of the end (tracemain.go:379-397) is one atomic step of the machine."
  },
  {
   "property": "C38",
   "status": "proved",
   "theorems": [
    "Scouter.C38_failed_service_is_never_dropped",
    "Scouter.C38_failed_service_is_never_dropped_however_ended"
   ],
   "note": ""
  },
  {
   "property": "C39",
   "status": "proved",
   "theorems": [
    "Scouter.C39_end_of_service_however_ended",
    "Scouter.C39_decision",
    "Scouter.C39_first_matching_pattern_decides",
    "Scouter.C39_off_drops_nothing",
    "Scouter.C39_rate_100_keeps",
    "Scouter.C39_rate_0_drops",
    "Scouter.C39_keeping_draws",
    "Scouter.C39_end_of_service"
   ],
   "note": "Exact decision for every configuration, draw and service; the pattern options have no influence because their matchers never match (C20); a child service's log is sent even when dropped."
  },
  {
   "property": "C40",
   "status": "proved",
   "theorems": [
    "Scouter.C40_nested_start_joins",
    "Scouter.C40_inner_end_ends_the_outer_service",
    "Scouter.C40_start_after_end_is_lost"
   ],
   "note": "Also: a service started on a context whose service has ended is lost."
  },
  {
   "property": "C41",
   "status": "proved",
   "theorems": [
    "Scouter.C41_goroutine_is_linked",
    "Scouter.C41_inherited_service_is_linked",
    "Scouter.C41_global_id_is_the_root",
    "Scouter.C41_links_are_kept"
   ],
   "note": ""
  },
  {
   "property": "C42",
   "status": "proved",
   "theorems": [
    "Scouter.C42_active_list_is_exact",
    "Scouter.C42_active_list_is_sound"
   ],
   "note": ""
  },
  {
   "property": "C43",
   "status": "proved",
   "theorems": [
    "Scouter.C43_first_error_wins",
    "Scouter.C43_forced_mark_replaces",
    "Scouter.C43_error_stays",
    "Scouter.C43_nothing_else_sets_it",
    "Scouter.C43_starts_without_error"
   ],
   "note": ""
  },
  {
   "property": "C44",
   "status": "proved",
   "theorems": [
    "Scouter.C44_no_trace_is_inert",
    "Scouter.C44_results"
   ],
   "note": ""
  },
  {
   "property": "C45",
   "status": "proved",
   "theorems": [
    "Scouter.C45_service_counters",
    "Scouter.C45_value_counters"
   ],
   "note": "Clock not before 1970 and non-decreasing; calls atomic; the figures are exact rationals, together with the whole numbers the program's floats are computed from (C112); recorded values are whole numbers."
  },
  {
   "property": "C46",
   "status": "proved",
   "theorems": [
    "Scouter.C46_service_figures_are_consistent"
   ],
   "note": "Any clock; calls atomic; exact rationals (floats: C112)."
  },
  {
   "property": "C47",
   "status": "proved",
   "theorems": [
    "Scouter.C47_refresh_is_up_to_date",
    "Scouter.C47_restored_file_ignored",
    "Scouter.C47_bare_environment_entry_panics"
   ],
   "note": "True when changes come with later modification times (proved for every such history, including changes during a refresh); false in general (proved witness). Environment entries without '=' crash (proved)."
  },
  {
   "property": "C48",
   "status": "proved",
   "theorems": [
    "Scouter.C48_precedence",
    "Scouter.C48_fields_read_their_own_key",
    "Scouter.C48_environment_value_cut",
    "Scouter.C48_no_sampling_by_default",
    "Scouter.C48_sampling_defaults"
   ],
   "note": "The properties library is modelled from its documentation, without ${} expansion; parsing of the file's syntax is not modelled."
  },
  {
   "property": "C49",
   "status": "proved",
   "theorems": [
    "Scouter.Tcp.C49_one_reply_each",
    "Scouter.Tcp.C49_only_whole_replies",
    "Scouter.Tcp.C49_served_until_change"
   ],
   "note": "For every handler; requests are broken only outside their bodies (see C50)."
  },
  {
   "property": "C50",
   "status": "proved",
   "theorems": [
    "Scouter.Tcp.C50_same_if_bodies_whole",
    "Scouter.Tcp.C50_broken_text_replaced"
   ],
   "note": "The property is false of the code: refuted for every request whose last parameter is a text broken anywhere; true when bodies arrive whole (proved for any bodies)."
  },
  {
   "property": "C51",
   "status": "proved",
   "theorems": [
    "Scouter.Tcp.C51_constant_pause"
   ],
   "note": "The property is false of the code: the pauses are proved constant for every history."
  },
  {
   "property": "C52",
   "status": "proved",
   "theorems": [
    "Scouter.Dump.C52_download_complete",
    "Scouter.Dump.C52_collector_gets_file",
    "Scouter.Dump.C52_growing_file",
    "Scouter.Dump.C52_stream_complete"
   ],
   "note": ""
  },
  {
   "property": "C53",
   "status": "proved",
   "theorems": [
    "Scouter.Dump.C53_names_are_walked",
    "Scouter.Dump.C53_reads_only_inside",
    "Scouter.Dump.C53_deletes_only_inside",
    "Scouter.Dump.C53_deletes_one",
    "Scouter.Dump.C53_deletion_answers",
    "Scouter.Dump.C53_any_file_readable",
    "Scouter.Dump.C53_any_pprof_removable"
   ],
   "note": "The property is false of the code: every file can be read, every pprof file removed; true for names without '..'."
  },
  {
   "property": "C54",
   "status": "proved",
   "theorems": [
    "Scouter.C54_active_count",
    "Scouter.C54_figures_add_up",
    "Scouter.C54_all_services_seen"
   ],
   "note": "In every state reached by proper calls with positive profile limits. The sum theorem needs distinct ids and at most 10000 running services (otherwise the registry evicts, see C42)."
  },
  {
   "property": "C55",
   "status": "proved",
   "theorems": [
    "Scouter.C55_short_input_long_list"
   ],
   "note": ""
  },
  {
   "property": "C56",
   "status": "proved",
   "theorems": [
    "Scouter.C56_truncated_blob_is_padded"
   ],
   "note": ""
  },
  {
   "property": "C57",
   "status": "proved",
   "theorems": [
    "Scouter.C57_dump_step_read_as_method"
   ],
   "note": ""
  },
  {
   "property": "C58",
   "status": "proved",
   "theorems": [
    "Scouter.C58_fnv_single_byte_change"
   ],
   "note": ""
  },
  {
   "property": "C59",
   "status": "proved",
   "theorems": [
    "Scouter.C59_no_panic_escapes",
    "Scouter.C59_no_panic_at_all"
   ],
   "note": ""
  },
  {
   "property": "C60",
   "status": "proved",
   "theorems": [
    "Scouter.C60_the_function_runs",
    "Scouter.Demo.C60_without_profile_buffer_the_function_is_lost"
   ],
   "note": "Holds for positive profile limits; a buffer of no steps loses the function (proved witness)."
  },
  {
   "property": "C61",
   "status": "proved",
   "theorems": [
    "Scouter.C61_log_carries_the_service",
    "Scouter.C61_http_log_carries_the_status",
    "Scouter.C61_http_end_differs_in_status_only"
   ],
   "note": "The profile count and size in the log are those before the last buffer (C35); the thread name is the hash of the global id."
  },
  {
   "property": "C62",
   "status": "proved",
   "theorems": [
    "Scouter.C62_clock_set_back"
   ],
   "note": "The property is false of the code; the exact effect is proved for every correction d with d % 301 != 1."
  },
  {
   "property": "C63",
   "status": "proved",
   "theorems": [
    "Scouter.C63_listing_shows_what_is_in_effect",
    "Scouter.C63_listed_text_reads_back",
    "Scouter.C63_wide_number_listed_but_cut"
   ],
   "note": ""
  },
  {
   "property": "C64",
   "status": "proved",
   "theorems": [
    "Scouter.C64_observers",
    "Scouter.C64_sampler_follows"
   ],
   "note": ""
  },
  {
   "property": "C65",
   "status": "proved",
   "theorems": [
    "Scouter.Dump.C65_profiles_complete",
    "Scouter.Dump.C65_thread_dump_lost",
    "Scouter.Dump.C65_unflushed_prefix"
   ],
   "note": "The property is false of the code for thread dumps: exact result proved for every dump."
  },
  {
   "property": "C66",
   "status": "proved",
   "theorems": [
    "Scouter.Handlers.C66_active_list_exact",
    "Scouter.Handlers.C66_active_list_sound"
   ],
   "note": ""
  },
  {
   "property": "C67",
   "status": "proved",
   "theorems": [
    "Scouter.Handlers.C67_thread_detail",
    "Scouter.Handlers.C67_wrong_parameters"
   ],
   "note": ""
  },
  {
   "property": "C68",
   "status": "proved",
   "theorems": [
    "Scouter.Handlers.C68_saved_text_is_shown",
    "Scouter.Handlers.C68_answer_says_whether_saved",
    "Scouter.Handlers.C68_saved_text_in_effect",
    "Scouter.Handlers.C68_saved_without_effect",
    "Scouter.Handlers.C68_bare_environment_entry"
   ],
   "note": ""
  },
  {
   "property": "C69",
   "status": "proved",
   "theorems": [
    "Scouter.Handlers.C69_listings"
   ],
   "note": ""
  },
  {
   "property": "C70",
   "status": "proved",
   "theorems": [
    "Scouter.Handlers.C70_unknown_command",
    "Scouter.Handlers.C70_kind_of_answer"
   ],
   "note": ""
  },
  {
   "property": "C71",
   "status": "proved",
   "theorems": [
    "Scouter.Handlers.C71_list_is_exact",
    "Scouter.Handlers.C71_binary_list_is_exact",
    "Scouter.Handlers.C71_listed_name_fetches",
    "Scouter.Handlers.C71_listed_binary_downloads",
    "Scouter.Handlers.C71_deeper_file_not_fetched",
    "Scouter.Handlers.C71_deleted_is_gone",
    "Scouter.Handlers.C71_paths_stay_distinct"
   ],
   "note": ""
  },
  {
   "property": "C72",
   "status": "proved",
   "theorems": [
    "Scouter.Handlers.C72_announcement",
    "Scouter.Handlers.C72_tracing_uses_it"
   ],
   "note": ""
  },
  {
   "property": "C73",
   "status": "proved",
   "theorems": [
    "Scouter.C73_message",
    "Scouter.C73_hashed_message",
    "Scouter.C73_parameterized_message",
    "Scouter.C73_given_step",
    "Scouter.C73_error_mark",
    "Scouter.C73_custom_method_start",
    "Scouter.C73_method_start",
    "Scouter.C73_method_end",
    "Scouter.C73_api_call_start",
    "Scouter.C73_api_call_end"
   ],
   "note": ""
  },
  {
   "property": "C74",
   "status": "proved",
   "theorems": [
    "Scouter.C74_http_log_however_ended",
    "Scouter.C74_http_start",
    "Scouter.C74_configured_headers",
    "Scouter.C74_other_lines",
    "Scouter.C74_http_log",
    "Scouter.C74_service_start"
   ],
   "note": ""
  },
  {
   "property": "C75",
   "status": "proved",
   "theorems": [
    "Scouter.C75_api_calls_add_up",
    "Scouter.C75_propagation"
   ],
   "note": ""
  },
  {
   "property": "C76",
   "status": "proved",
   "theorems": [
    "Scouter.C76_inheritance",
    "Scouter.C76_child",
    "Scouter.C76_child_goroutine_begins"
   ],
   "note": ""
  },
  {
   "property": "C77",
   "status": "proved",
   "theorems": [
    "Scouter.C77_name",
    "Scouter.C77_texts",
    "Scouter.C77_stream",
    "Scouter.C77_fixed",
    "Scouter.C77_log_after_any_history",
    "Scouter.C77_log_of_a_service",
    "Scouter.C77_log_however_ended"
   ],
   "note": ""
  },
  {
   "property": "C78",
   "status": "proved",
   "theorems": [
    "Scouter.C78_real_time_pack",
    "Scouter.C78_five_minute_pack"
   ],
   "note": ""
  },
  {
   "property": "C79",
   "status": "proved",
   "theorems": [
    "Scouter.C79_packs_count_the_services"
   ],
   "note": ""
  },
  {
   "property": "C80",
   "status": "proved",
   "theorems": [
    "Scouter.C80_send_go_counter",
    "Scouter.C80_send_service_counter_swaps"
   ],
   "note": "A defect of the code as found; nothing in the repository calls counter.Start."
  },
  {
   "property": "C81",
   "status": "proved",
   "theorems": [
    "Scouter.C81_complete_however_ended",
    "Scouter.C81_stream",
    "Scouter.C81_recorded_steps_stay",
    "Scouter.C81_complete"
   ],
   "note": "AllOnce: a step handed to AddStep, EndMethod or EndApiCall is not yet in a profile; re-ending an already recorded step would alter it in memory."
  },
  {
   "property": "C82",
   "status": "proved",
   "theorems": [
    "Scouter.C82_log_untouched_however_ended",
    "Scouter.C82_other_services_untouched",
    "Scouter.C82_profile_untouched",
    "Scouter.C82_log_untouched"
   ],
   "note": ""
  },
  {
   "property": "C83",
   "status": "proved",
   "theorems": [
    "Scouter.C83_tells_however_ended",
    "Scouter.C83_received_decoded",
    "Scouter.C83_http_whole_life",
    "Scouter.C83_inherited_whole_life",
    "Scouter.C83_child_whole_life",
    "Scouter.C83_profile_tells_the_calls",
    "Scouter.C83_whole_life",
    "Scouter.C83_decoded"
   ],
   "note": "Decoding (C83_decoded) is stated for steps that have a decoding: a user-made dump step has none (C57)."
  },
  {
   "property": "C84",
   "status": "proved",
   "theorems": [
    "Scouter.Handlers.C84_thread_dump",
    "Scouter.Handlers.C84_dump_fetched_by_name",
    "Scouter.Handlers.C84_answered_name_not_fetched",
    "Scouter.Handlers.C84_profile_triggers"
   ],
   "note": "C84_answered_name_not_fetched is a finding: the answered full path does not fetch the file."
  },
  {
   "property": "C85",
   "status": "proved",
   "theorems": [
    "Scouter.Profiling.C85_mutex_puts_back",
    "Scouter.Profiling.C85_overlapping_mutex_profiles_leak",
    "Scouter.Profiling.C85_mutex_fraction_kept",
    "Scouter.Profiling.C85_block_profiling_off_afterwards",
    "Scouter.Profiling.C85_switched_on",
    "Scouter.Profiling.C85_one_cpu_profile",
    "Scouter.Profiling.C85_second_cpu_profile_empty",
    "Scouter.Profiling.C85_profile_complete",
    "Scouter.Profiling.C85_cpu_profile_complete",
    "Scouter.Profiling.C85_file_of_request",
    "Scouter.Profiling.C85_profile_downloads"
   ],
   "note": "Three as-found theorems: overlapping mutex profiles leak the fraction, block profiling is turned off, a second CPU profile is empty."
  },
  {
   "property": "C86",
   "status": "proved",
   "theorems": [
    "Scouter.Recorders.C86_taking_turns",
    "Scouter.Recorders.C86_nothing_invented",
    "Scouter.Recorders.C86_room_afterwards",
    "Scouter.Recorders.C86_no_panic_afterwards",
    "Scouter.Recorders.C86_complete_afterwards",
    "Scouter.Recorders.C86_count_covers_what_was_sent",
    "Scouter.Recorders.C86_a_step_can_be_lost",
    "Scouter.Recorders.C86_steps_can_be_sent_twice",
    "Scouter.Recorders.C86_a_call_can_panic",
    "Scouter.Recorders.C86_same_number",
    "Scouter.Recorders.C86_close_can_panic"
   ],
   "note": "Findings: C86_a_step_can_be_lost (for any state), C86_steps_can_be_sent_twice, C86_a_call_can_panic, C86_same_number, C86_close_can_panic. The memory model is sequential consistency; Go's racy behaviours beyond it are not modelled."
  },
  {
   "property": "C87",
   "status": "proved",
   "theorems": [
    "Scouter.Announcers.C87_announced_or_about_to_be",
    "Scouter.Announcers.C87_announced_in_the_end",
    "Scouter.Announcers.C87_at_most_once_per_call",
    "Scouter.Announcers.C87_can_be_announced_twice",
    "Scouter.Announcers.C87_hash_before_text"
   ],
   "note": "C87_can_be_announced_twice and C87_hash_before_text are witness schedules from every state in which the text is not remembered."
  },
  {
   "property": "C88",
   "status": "proved",
   "theorems": [
    "Scouter.ListValue.C88_get_what_was_added",
    "Scouter.ListValue.C88_outside_panics",
    "Scouter.ListValue.C88_same_after_transport"
   ],
   "note": "Panics outside of the list are what the code does (index expression), stated as such."
  },
  {
   "property": "C89",
   "status": "proved",
   "theorems": [
    "Scouter.Iterating.C89_only_what_was_there",
    "Scouter.Iterating.C89_at_most_once_per_entry",
    "Scouter.Iterating.C89_who_stays_is_listed_once",
    "Scouter.Iterating.C89_the_call_can_end",
    "Scouter.Iterating.C89_can_be_listed_twice",
    "Scouter.Iterating.C89_listed_when_gone"
   ],
   "note": "C89_can_be_listed_twice and C89_listed_when_gone are witness histories."
  },
  {
   "property": "C90",
   "status": "proved",
   "theorems": [
    "Scouter.LockOrder.C90_no_deadlock",
    "Scouter.LockOrder.C90_own_observers",
    "Scouter.LockOrder.C90_every_schedule_ends",
    "Scouter.LockOrder.C90_all_calls_end",
    "Scouter.LockOrder.C90_registering_observer_deadlocks",
    "Scouter.LockOrder.C90_refreshing_observer_deadlocks"
   ],
   "note": "lra's Empty is left out here: it takes its read lock twice and can deadlock (C28_empty_can_deadlock). sync.Once is not modelled."
  },
  {
   "property": "C91",
   "status": "proved",
   "theorems": [
    "Scouter.ConcurrentMeter.C91_readings_are_fair",
    "Scouter.ConcurrentMeter.C91_undisturbed_reading",
    "Scouter.ConcurrentMeter.C91_every_call_recorded_once",
    "Scouter.ConcurrentMeter.C91_no_deadlock",
    "Scouter.ConcurrentMeter.C91_all_calls_can_end",
    "Scouter.ConcurrentMeter.C91_torn_reading",
    "Scouter.ConcurrentMeter.C91_torn_error_rate",
    "Scouter.ConcurrentMeter.C91_slow_recording_misplaced"
   ],
   "note": ""
  },
  {
   "property": "C92",
   "status": "proved",
   "theorems": [
    "Scouter.C92_collector_obtains",
    "Scouter.C92_logs_at_collector"
   ],
   "note": ""
  },
  {
   "property": "C93",
   "status": "proved",
   "theorems": [
    "Scouter.C93_unreadable_file_has_no_effect",
    "Scouter.C93_settings_without_a_file",
    "Scouter.C93_nameless_object",
    "Scouter.C93_recovers"
   ],
   "note": ""
  },
  {
   "property": "C94",
   "status": "proved",
   "theorems": [
    "Scouter.Places.C94_places",
    "Scouter.Places.C94_dump_requests_stay_off_other_files",
    "Scouter.Places.C94_absolute_path_stays",
    "Scouter.Places.C94_chdir_immaterial",
    "Scouter.Places.C94_chdir_loses_configuration",
    "Scouter.Places.C94_start_needs_log_file"
   ],
   "note": ""
  },
  {
   "property": "C95",
   "status": "proved",
   "theorems": [
    "Scouter.Reload.C95_call",
    "Scouter.Reload.C95_converges",
    "Scouter.Reload.C95_never_dialled_again",
    "Scouter.Reload.C95_zero_maximum_ends_the_program",
    "Scouter.Reload.C95_torn_address",
    "Scouter.Reload.C95_cut_off_by_a_reload"
   ],
   "note": ""
  },
  {
   "property": "C96",
   "status": "proved",
   "theorems": [
    "Scouter.Marking.C96_first_error_stays",
    "Scouter.Marking.C96_errors_not_forgotten",
    "Scouter.Marking.C96_error_was_reported",
    "Scouter.Marking.C96_failed_service_is_logged",
    "Scouter.Marking.C96_api_calls_at_most_once",
    "Scouter.Marking.C96_taking_turns",
    "Scouter.Marking.C96_decision",
    "Scouter.Marking.C96_first_error_replaced",
    "Scouter.Marking.C96_empty_text_takes_error_away",
    "Scouter.Marking.C96_api_call_lost",
    "Scouter.Marking.C96_failed_while_ending"
   ],
   "note": ""
  },
  {
   "property": "C97",
   "status": "proved",
   "theorems": [
    "Scouter.Deciding.C97_decision_of_a_mixture",
    "Scouter.Deciding.C97_failed_service_kept",
    "Scouter.Deciding.C97_off_drops_nothing",
    "Scouter.Deciding.C97_full_rates_drop_nothing",
    "Scouter.Deciding.C97_one_option_is_atomic",
    "Scouter.Deciding.C97_settled",
    "Scouter.Deciding.C97_decision_ends",
    "Scouter.Deciding.C97_dropped_by_neither"
   ],
   "note": ""
  },
  {
   "property": "C98",
   "status": "proved",
   "theorems": [
    "Scouter.Session.C98_beginning_of_the_stream",
    "Scouter.Session.C98_requests_carried_out",
    "Scouter.Session.C98_only_the_last_reply_is_cut",
    "Scouter.Session.C98_enough_room",
    "Scouter.Session.C98_lost_reply_request_done",
    "Scouter.Session.C98_answers_only_the_configured_collector",
    "Scouter.Session.C98_all_answered",
    "Scouter.Session.C98_stale_collector"
   ],
   "note": ""
  },
  {
   "property": "C99",
   "status": "proved",
   "theorems": [
    "Scouter.Program.C99_ends_only",
    "Scouter.Program.C99_survives",
    "Scouter.Program.C99_ends_so",
    "Scouter.Program.C99_starts",
    "Scouter.Program.C99_starts_by_default",
    "Scouter.Program.C99_never_ends",
    "Scouter.Program.C99_counters_go_on"
   ],
   "note": ""
  }
 ]
}