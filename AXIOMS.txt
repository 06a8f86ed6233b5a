'Scouter.C01_decimal_roundtrip' depends on axioms: [propext, Classical.choice, Quot.sound]
'Scouter.C01_decimal32_roundtrip' depends on axioms: [propext, Classical.choice, Quot.sound]
'Scouter.C01_decimal_shortest' depends on axioms: [propext, Classical.choice, Quot.sound]
'Scouter.C01_decimal32_shortest' depends on axioms: [propext, Classical.choice, Quot.sound]
'Scouter.C01_collector_reads_decimal' depends on axioms: [propext, Classical.choice, Quot.sound]
'Scouter.C01_any_width' depends on axioms: [propext, Quot.sound]
'Scouter.C01_no_width' depends on axioms: [propext, Quot.sound]
'Scouter.C01_truncated' depends on axioms: [propext, Quot.sound]
'Scouter.C02_written_big_endian' depends on axioms: [propext, Quot.sound]
'Scouter.C02_read_back' depends on axioms: [propext, Quot.sound]
'Scouter.C02_short_input' depends on axioms: [propext, Quot.sound]
'Scouter.C03_blob_roundtrip' depends on axioms: [propext, Classical.choice, Quot.sound]
'Scouter.C03_blob_window_panics' depends on axioms: [propext, Classical.choice, Quot.sound]
'Scouter.C03_collector_reads_blob' depends on axioms: [propext, Quot.sound]
'Scouter.C04_string_roundtrip' depends on axioms: [propext, Classical.choice, Quot.sound]
'Scouter.C04_huge_string' depends on axioms: [propext, Classical.choice, Quot.sound]
'Scouter.C04_window_and_collector' depends on axioms: [propext, Classical.choice, Quot.sound]
'Scouter.C05_value_roundtrip' depends on axioms: [propext, Classical.choice, Quot.sound]
'Scouter.C05_plain_value_roundtrip' depends on axioms: [propext, Classical.choice, Quot.sound]
'Scouter.C05_collector_reads_value' depends on axioms: [propext, Classical.choice, Quot.sound]
'Scouter.C06_ip4_never_read_back' depends on axioms: [propext, Classical.choice, Quot.sound]
'Scouter.C06_ip4_leading_zero' depends on axioms: [propext, Classical.choice, Quot.sound]
'Scouter.C06_ip4_small_first_byte' depends on axioms: [propext, Classical.choice, Quot.sound]
'Scouter.C06_collector_reads_ip4' depends on axioms: [propext, Classical.choice, Quot.sound]
'Scouter.C07_reads_stay_inside' depends on axioms: [propext, Quot.sound]
'Scouter.C07_depth_bounded_by_input' depends on axioms: [propext, Quot.sound]
'Scouter.C07_panic_needs_negative_length' depends on axioms: [propext, Classical.choice, Quot.sound]
'Scouter.C08_size_is_length' depends on axioms: [propext, Classical.choice, Quot.sound]
'Scouter.C08_size_exact' depends on axioms: [propext, Classical.choice, Quot.sound]
'Scouter.C08_append_only' depends on axioms: [propext, Classical.choice, Quot.sound]
'Scouter.C09_map_pack_roundtrip' depends on axioms: [propext, Classical.choice, Quot.sound]
'Scouter.C09_counter_pack_roundtrip' depends on axioms: [propext, Classical.choice, Quot.sound]
'Scouter.C09_counter_pack_needs_a_map' depends on axioms: [propext, Classical.choice, Quot.sound]
'Scouter.C09_object2_pack_roundtrip' depends on axioms: [propext, Classical.choice, Quot.sound]
'Scouter.C09_object_pack_own_read' depends on axioms: [propext, Classical.choice, Quot.sound]
'Scouter.C09_counterK8S_own_read' depends on axioms: [propext, Classical.choice, Quot.sound]
'Scouter.C09_unchanged' depends on axioms: [propext, Classical.choice, Quot.sound]
'Scouter.C10_registration_not_readable' depends on axioms: [propext, Classical.choice, Quot.sound]
'Scouter.C100_no_dangling' depends on axioms: [propext, Classical.choice, Quot.sound]
'Scouter.C100_in_any_life' depends on axioms: [propext, Classical.choice, Quot.sound]
'Scouter.C100_after_a_reset' depends on axioms: [propext, Classical.choice, Quot.sound]
'Scouter.C100_after_a_reset_call' depends on axioms: [propext, Classical.choice, Quot.sound]
'Scouter.C100_error_not_announced_again' depends on axioms: [propext, Classical.choice, Quot.sound]
'Scouter.C101_as_if_alone' depends on axioms: [propext, Classical.choice, Quot.sound]
'Scouter.C101_each_is_a_history' depends on axioms: [propext, Classical.choice, Quot.sound]
'Scouter.C101_nothing_lost' depends on axioms: [propext, Classical.choice, Quot.sound]
'Scouter.C101_finishes' depends on axioms: [propext, Classical.choice, Quot.sound]
'Scouter.C101_at_most_one_log' depends on axioms: [propext, Classical.choice, Quot.sound]
'Scouter.C101_exactly_one_log_without_sampling' depends on axioms: [propext, Classical.choice, Quot.sound]
'Scouter.C101_no_dangling' depends on axioms: [propext, Classical.choice, Quot.sound]
'Scouter.C102_lists_only_services_that_run' depends on axioms: [propext, Classical.choice, Quot.sound]
'Scouter.C102_ended_is_not_listed' depends on axioms: [propext, Classical.choice, Quot.sound]
'Scouter.C102_running_is_listed' depends on axioms: [propext, Classical.choice, Quot.sound]
'Scouter.C102_size_is_exact' depends on axioms: [propext, Classical.choice, Quot.sound]
'Scouter.C103_each_number_once' depends on axioms: [propext, Classical.choice, Quot.sound]
'Scouter.C103_all_calls_served' depends on axioms: [propext, Classical.choice, Quot.sound]
'Scouter.C103_not_negative' depends on axioms: [propext, Classical.choice, Quot.sound]
'Scouter.C103_never_blocks' depends on axioms: [propext, Classical.choice, Quot.sound]
'Scouter.C103_same_second_same_ids' depends on axioms: [propext, Classical.choice, Quot.sound]
'Scouter.C104_panics_only_on_holes' depends on axioms: [propext, Classical.choice, Quot.sound]
'Scouter.C104_received_values_can_be_shown' depends on axioms: [propext, Classical.choice, Quot.sound]
'Scouter.C104_put_makes_no_holes' depends on axioms: [propext, Classical.choice, Quot.sound]
'Scouter.C104_everything_inside_is_shown' depends on axioms: [propext, Classical.choice, Quot.sound]
'Scouter.C104_numbers_read_back' depends on axioms: [propext, Classical.choice, Quot.sound]
'Scouter.C104_list_in_order' depends on axioms: [propext, Classical.choice, Quot.sound]
'Scouter.C104_order_of_iteration' depends on axioms: [propext, Classical.choice, Quot.sound]
'Scouter.C104_packs' depends on axioms: [propext, Classical.choice, Quot.sound]
'Scouter.C104_misspelt' depends on axioms: [propext, Classical.choice, Quot.sound]
'Scouter.C105_goroutine_number' depends on axioms: [propext, Classical.choice, Quot.sound]
'Scouter.C105_never_crashes_once_registered' depends on axioms: [propext, Classical.choice, Quot.sound]
'Scouter.C105_crashes_before_registration' depends on axioms: [propext, Classical.choice, Quot.sound]
'Scouter.C105_stack_lines' depends on axioms: [propext, Classical.choice, Quot.sound]
'Scouter.Accesses.C106_maps_are_safe' depends on axioms: [propext, Quot.sound]
'Scouter.Accesses.C106_what_can_race' depends on axioms: [propext, Quot.sound]
'Scouter.C107_everything_has_a_name' depends on axioms: [propext, Classical.choice, Quot.sound]
'Scouter.C107_no_wrong_text' depends on axioms: [propext, Classical.choice, Quot.sound]
'Scouter.C107_service_at_collector' depends on axioms: [propext, Classical.choice, Quot.sound]
'Scouter.C107_profile_in_order' depends on axioms: [propext, Classical.choice, Quot.sound]
'Scouter.C107_story_at_collector' depends on axioms: [propext, Classical.choice, Quot.sound]
'Scouter.C107_service_at_collector_however_ended' depends on axioms: [propext, Classical.choice, Quot.sound]
'Scouter.C107_life_at_collector' depends on axioms: [propext, Classical.choice, Quot.sound]
'Scouter.Deferring.C108_application_unchanged' depends on axioms: [propext]
'Scouter.Deferring.C108_no_false_alert' depends on axioms: [propext]
'Scouter.Deferring.C108_agent_panic_reported' depends on axioms: [propext]
'Scouter.Deferring.C108_goroutine' depends on axioms: [propext]
'Scouter.Deferring.C108_final_handler_has_no_effect' depends on axioms: [propext, Quot.sound]
'Scouter.Deferring.C108_before_registration' depends on axioms: [propext]
'Scouter.Deferring.C108_callback_panic_taken' depends on axioms: [propext]
'Scouter.Deferring.C108_counter_round' depends on axioms: [propext, Quot.sound]
'Scouter.Bounded.C109_tables_and_buffers' depends on axioms: [propext, Classical.choice, Quot.sound]
'Scouter.Bounded.C109_tables_under_any_schedule' depends on axioms: [propext, Classical.choice, Quot.sound]
'Scouter.Bounded.C109_meters' depends on axioms: [propext, Classical.choice, Quot.sound]
'Scouter.C11_collector_reads_xlog' depends on axioms: [propext, Classical.choice, Quot.sound]
'Scouter.C11_same_bytes_same_fields' depends on axioms: [propext, Classical.choice, Quot.sound]
'Scouter.Failing.C110_listing' depends on axioms: [propext, Classical.choice, Quot.sound]
'Scouter.Failing.C110_binary_listing' depends on axioms: [propext, Classical.choice, Quot.sound]
'Scouter.Failing.C110_download' depends on axioms: [propext, Classical.choice, Quot.sound]
'Scouter.Failing.C110_stream' depends on axioms: [propext, Classical.choice, Quot.sound]
'Scouter.Failing.C110_thread_dump' depends on axioms: [propext, Classical.choice, Quot.sound]
'Scouter.Failing.C110_save' depends on axioms: [propext, Classical.choice, Quot.sound]
'Scouter.Failing.C110_half_a_configuration' depends on axioms: [propext, Classical.choice, Quot.sound]
'Scouter.Failing.C110_pieces' depends on axioms: [propext, Classical.choice, Quot.sound]
'Scouter.Failing.C110_without_failures' depends on axioms: [propext, Classical.choice, Quot.sound]
'Scouter.Propagation.C111_added' depends on axioms: [propext, Classical.choice, Quot.sound]
'Scouter.Propagation.C111_no_request' depends on axioms: [propext, Classical.choice, Quot.sound]
'Scouter.Propagation.C111_no_headers' depends on axioms: [propext, Classical.choice, Quot.sound]
'Scouter.Propagation.C111_first_stays' depends on axioms: [propext, Classical.choice, Quot.sound]
'Scouter.Propagation.C111_one_value_per_call' depends on axioms: [propext, Classical.choice, Quot.sound]
'Scouter.Floating.C112_rounding' depends on axioms: [propext, Classical.choice, Quot.sound]
'Scouter.Floating.C112_throughput' depends on axioms: [propext, Classical.choice, Quot.sound]
'Scouter.Floating.C112_throughput_grows' depends on axioms: [propext, Classical.choice, Quot.sound]
'Scouter.Floating.C112_error_rate' depends on axioms: [propext, Classical.choice, Quot.sound]
'Scouter.Floating.C112_not_all_failed' depends on axioms: [propext, Classical.choice, Quot.sound]
'Scouter.Floating.C112_error_rate_grows' depends on axioms: [propext, Classical.choice, Quot.sound]
'Scouter.Floating.C112_all_failed_but_one' depends on axioms: [propext, Classical.choice, Quot.sound]
'Scouter.Floating.C112_sums' depends on axioms: [propext, Classical.choice, Quot.sound]
'Scouter.Floating.C112_average' depends on axioms: [propext, Classical.choice, Quot.sound]
'Scouter.Floating.C112_gc_rates' depends on axioms: [propext, Classical.choice, Quot.sound]
'Scouter.Floating.C112_gc_clock_stands' depends on axioms: [propext, Classical.choice, Quot.sound]
'Scouter.Floating.C112_gc_clock_back' depends on axioms: [propext, Classical.choice, Quot.sound]
'Scouter.Floating.C112_error_rate_any_clock' depends on axioms: [propext, Classical.choice, Quot.sound]
'Scouter.Floating.C112_real_time_figures' depends on axioms: [propext, Classical.choice, Quot.sound]
'Scouter.Floating.C112_five_minute_figures' depends on axioms: [propext, Classical.choice, Quot.sound]
'Scouter.Floating.C113_text' depends on axioms: [propext, Classical.choice, Quot.sound]
'Scouter.Floating.C113_text_single' depends on axioms: [propext, Classical.choice, Quot.sound]
'Scouter.Floating.C113_no_numbers' depends on axioms: [propext, Classical.choice, Quot.sound]
'Scouter.Floating.C113_texts_in_order' depends on axioms: [propext, Classical.choice, Quot.sound]
'Scouter.Floating.C113_round_up' depends on axioms: [propext, Classical.choice, Quot.sound]
'Scouter.Floating.C113_rounds_too_far' depends on axioms: [propext, Classical.choice, Quot.sound]
'Scouter.Floating.C113_round_up_negative' depends on axioms: [propext, Classical.choice, Quot.sound]
'Scouter.ConcurrentValue.C114_readings_are_fair' depends on axioms: [propext, Classical.choice, Quot.sound]
'Scouter.ConcurrentValue.C114_undisturbed_reading' depends on axioms: [propext, Classical.choice, Quot.sound]
'Scouter.ConcurrentValue.C114_average_never_above_largest' depends on axioms: [propext, Classical.choice, Quot.sound]
'Scouter.ConcurrentValue.C114_recorder_reads_exactly' depends on axioms: [propext, Classical.choice, Quot.sound]
'Scouter.ConcurrentValue.C114_every_value_recorded_once' depends on axioms: [propext, Classical.choice, Quot.sound]
'Scouter.ConcurrentValue.C114_no_deadlock' depends on axioms: [propext, Quot.sound]
'Scouter.ConcurrentValue.C114_all_calls_can_end' depends on axioms: [propext, Classical.choice, Quot.sound]
'Scouter.ConcurrentValue.C114_torn_reading' depends on axioms: [propext, Classical.choice, Quot.sound]
'Scouter.ConcurrentValue.C114_slow_recording_misplaced' depends on axioms: [propext, Classical.choice, Quot.sound]
'Scouter.Counting.C115_total' depends on axioms: [propext, Classical.choice, Quot.sound]
'Scouter.Counting.C115_colours' depends on axioms: [propext, Classical.choice, Quot.sound]
'Scouter.Counting.C115_stuck' depends on axioms: [propext, Classical.choice, Quot.sound]
'Scouter.Counting.C115_more_than_ever_ran' depends on axioms: [propext, Quot.sound]
'Scouter.C116_after_the_end_however_ended' depends on axioms: [propext, Classical.choice, Quot.sound]
'Scouter.C116_late_steps' depends on axioms: [propext, Classical.choice, Quot.sound] /tmp/axioms_query.lean:147:14: error(lean.unknownIdentifier): Unknown constant `C116_stream` /tmp/axioms_query.lean:148:14: error(lean.unknownIdentifier): Unknown constant `C116_after_the_end`
'Scouter.C117_options_govern_tracing' depends on axioms: [propext, Classical.choice, Quot.sound]
'Scouter.C117_options_govern_sender' depends on axioms: [propext, Classical.choice, Quot.sound]
'Scouter.C117_documented' depends on axioms: [propext, Classical.choice, Quot.sound]
'Scouter.C117_show_error_without_effect' depends on axioms: [propext, Classical.choice, Quot.sound]
'Scouter.Program.C117_governed' depends on axioms: [propext, Classical.choice, Quot.sound]
'Scouter.Program.C117_refresh_puts_into_effect' depends on axioms: [propext, Classical.choice, Quot.sound]
'Scouter.C118_http_client_address' depends on axioms: [propext, Classical.choice, Quot.sound]
'Scouter.C118_given_address' depends on axioms: [propext, Classical.choice, Quot.sound]
'Scouter.C118_bracketed_address_unknown' depends on axioms: [propext, Classical.choice, Quot.sound]
'Scouter.C118_list_of_addresses_unknown' depends on axioms: [propext, Classical.choice, Quot.sound]
'Scouter.C118_header_is_believed' depends on axioms: [propext, Classical.choice, Quot.sound]
'Scouter.C118_shown_decided' depends on axioms: [propext, Classical.choice, Quot.sound]
'Scouter.C119_stuck_services_are_told' depends on axioms: [propext, Classical.choice, Quot.sound]
'Scouter.C119_stuck_profile_complete' depends on axioms: [propext, Classical.choice, Quot.sound]
'Scouter.C119_stuck_log_has_error' depends on axioms: [propext, Classical.choice, Quot.sound]
'Scouter.C119_stuck_log_at_collector' depends on axioms: [propext, Classical.choice, Quot.sound]
'Scouter.C119_stuck_profile_at_collector' depends on axioms: [propext, Classical.choice, Quot.sound]
'Scouter.C12_collector_reads_pack' depends on axioms: [propext, Classical.choice, Quot.sound]
'Scouter.Sweeping.C120_without_calls_as_at_once' depends on axioms: [propext, Classical.choice, Quot.sound]
'Scouter.Sweeping.C120_at_most_one_log' depends on axioms: [propext, Classical.choice, Quot.sound]
'Scouter.Sweeping.C120_running_are_taken' depends on axioms: [propext, Classical.choice, Quot.sound]
'Scouter.Sweeping.C120_counted_exactly_once' depends on axioms: [propext, Classical.choice, Quot.sound]
'Scouter.Sweeping.C120_each_look' depends on axioms: [propext, Classical.choice, Quot.sound]
'Scouter.Sweeping.C120_ended_stays_ended' depends on axioms: [propext, Classical.choice, Quot.sound]
'Scouter.Sweeping.C120_each_listed_is_counted' depends on axioms: [propext, Classical.choice, Quot.sound]
'Scouter.Identity.C121_what_is_told' depends on axioms: [propext, Classical.choice, Quot.sound]
'Scouter.Identity.C121_between_loads' depends on axioms: [propext, Classical.choice, Quot.sound]
'Scouter.Identity.C121_same_again' depends on axioms: [propext, Classical.choice, Quot.sound]
'Scouter.Identity.C121_same_length' depends on axioms: [propext, Classical.choice, Quot.sound]
'Scouter.Identity.C121_cut_or_overrun' depends on axioms: [propext, Classical.choice, Quot.sound]
'Scouter.Identity.C121_host' depends on axioms: [propext, Classical.choice, Quot.sound]
'Scouter.Identity.C121_never_back' depends on axioms: [propext, Classical.choice, Quot.sound]
'Scouter.Identity.C121_session_goes_on' depends on axioms: [propext, Classical.choice, Quot.sound]
'Scouter.Identity.C121_session_ends' depends on axioms: [propext, Classical.choice, Quot.sound]
'Scouter.Identity.C121_torn_counters' depends on axioms: [propext, Quot.sound]
'Scouter.Identity.C121_torn_object' depends on axioms: [propext, Classical.choice, Quot.sound]
'Scouter.Identity.C121_torn_address' depends on axioms: [propext, Quot.sound]
'Scouter.Identity.C121_cut_name' depends on axioms: [propext, Quot.sound]
'Scouter.Disclosed.C122_what_is_recorded' depends on axioms: [propext, Classical.choice, Quot.sound]
'Scouter.Disclosed.C122_between_loads' depends on axioms: [propext, Classical.choice, Quot.sound]
'Scouter.Disclosed.C122_same_again' depends on axioms: [propext, Classical.choice, Quot.sound]
'Scouter.Disclosed.C122_off' depends on axioms: [propext, Classical.choice, Quot.sound]
'Scouter.Disclosed.C122_named_before' depends on axioms: [propext, Classical.choice, Quot.sound]
'Scouter.Disclosed.C122_client_address' depends on axioms: [propext, Classical.choice, Quot.sound]
'Scouter.Disclosed.C122_all_disclosed' depends on axioms: [propext, Classical.choice, Quot.sound]
'Scouter.Disclosed.C122_all_disclosed_at_the_end' depends on axioms: [propext, Classical.choice, Quot.sound]
'Scouter.Looking.C123_what_a_look_comes_to' depends on axioms: [propext, Classical.choice, Quot.sound]
'Scouter.Looking.C123_between_loads' depends on axioms: [propext, Classical.choice, Quot.sound]
'Scouter.Looking.C123_one_option' depends on axioms: [propext, Classical.choice, Quot.sound]
'Scouter.Looking.C123_needs_a_reason' depends on axioms: [propext, Classical.choice, Quot.sound]
'Scouter.Looking.C123_ended_for_nothing' depends on axioms: [propext, Classical.choice, Quot.sound]
'Scouter.Looking.C123_ended_too_early' depends on axioms: [propext, Quot.sound]
'Scouter.Looking.C123_as_looked_at' depends on axioms: [propext, Classical.choice, Quot.sound]
'Scouter.C13_profile_decodes' depends on axioms: [propext, Classical.choice, Quot.sound]
'Scouter.C13_denotes' depends on axioms: [propext, Classical.choice, Quot.sound]
'Scouter.C14_params_recovered' depends on axioms: [propext, Quot.sound]
'Scouter.C14_params_in_profile' depends on axioms: [propext, Classical.choice, Quot.sound]
'Scouter.C14_etx_splits' depends on axioms: [propext, Quot.sound]
'Scouter.C15_map_pack_get' depends on axioms: [propext, Classical.choice, Quot.sound]
'Scouter.C15_map_value_get' depends on axioms: [propext, Classical.choice, Quot.sound]
'Scouter.C15_counter_pack_get' depends on axioms: [propext, Classical.choice, Quot.sound]
'Scouter.C15_unsupported_put' depends on axioms: [propext, Classical.choice, Quot.sound]
'Scouter.C15_setStatus_does_nothing' depends on axioms: [propext, Classical.choice, Quot.sound]
'Scouter.C16_hash_is_crc32' depends on axioms: [propext, Classical.choice, Quot.sound]
'Scouter.C16_hash_empty' depends on axioms: [propext, Quot.sound]
'Scouter.C17_window_change_changes_hash' depends on axioms: [propext, Classical.choice, Quot.sound]
'Scouter.C17_collisions_exist' depends on axioms: [propext, Classical.choice, Quot.sound]
'Scouter.C18_ip_text_parses' depends on axioms: [propext, Classical.choice, Quot.sound]
'Scouter.C18_other_text_is_zero' depends on axioms: [propext, Classical.choice, Quot.sound]
'Scouter.C18_ip_always_four_bytes' depends on axioms: [propext, Classical.choice, Quot.sound]
'Scouter.C18_ip_text_unambiguous' depends on axioms: [propext, Classical.choice, Quot.sound]
'Scouter.C19_empty_target_rejected' depends on axioms: [propext]
'Scouter.C19_simple_patterns_exact' depends on axioms: [propext, Quot.sound]
'Scouter.C19_prefix_suffix_pattern' depends on axioms: [propext, Quot.sound]
'Scouter.C19_prefix_middle_pattern' depends on axioms: [propext, Quot.sound]
'Scouter.C19_middle_suffix_pattern' depends on axioms: [propext, Quot.sound]
'Scouter.C19_middle_middle_pattern' depends on axioms: [propext, Quot.sound]
'Scouter.C19_wildcard_implies_accepted' depends on axioms: [propext, Quot.sound]
'Scouter.C19_overlap_false_positives' depends on axioms: [propext, Classical.choice, Quot.sound]
'Scouter.C19_two_inner_stars_unsupported' depends on axioms: [propext, Classical.choice, Quot.sound]
'Scouter.C20_chained_matcher_never_matches' depends on axioms: [propext, Quot.sound]
'Scouter.C20_selection_fails' depends on axioms: [propext, Classical.choice, Quot.sound]
'Scouter.C21_txid_text_reads_back' depends on axioms: [propext, Classical.choice, Quot.sound]
'Scouter.C21_txid_text_injective' depends on axioms: [propext, Classical.choice, Quot.sound]
'Scouter.C21_txid_text_prefix' depends on axioms: [propext, Quot.sound]
'Scouter.C22_duration_recombines' depends on axioms: [propext, Classical.choice, Quot.sound]
'Scouter.C22_decimal_text_reads_back' depends on axioms: [propext, Quot.sound]
'Scouter.C23_cache_is_insertion_ordered_map' depends on axioms: [propext, Classical.choice, Quot.sound]
'Scouter.C23_get_returns_last_added' depends on axioms: [propext, Classical.choice, Quot.sound]
'Scouter.C23_size_after_add' depends on axioms: [propext, Classical.choice, Quot.sound]
'Scouter.C24_never_exceeds_bound' depends on axioms: [propext, Classical.choice, Quot.sound]
'Scouter.C24_index_and_list_agree' depends on axioms: [propext, Classical.choice, Quot.sound]
'Scouter.C24_unbounded_keeps_everything' depends on axioms: [propext, Classical.choice, Quot.sound]
'Scouter.C25_callback_log_is_departures' depends on axioms: [propext, Classical.choice, Quot.sound]
'Scouter.C25_each_insertion_reported_once' depends on axioms: [propext, Classical.choice, Quot.sound]
'Scouter.C25_remove_reports_current_value' depends on axioms: [propext, Classical.choice, Quot.sound]
'Scouter.C26_map_bounded_and_distinct' depends on axioms: [propext, Quot.sound]
'Scouter.C26_map_add' depends on axioms: [propext, Quot.sound]
'Scouter.C26_map_first_value_kept' depends on axioms: [propext, Quot.sound]
'Scouter.C26_map_nonpositive_bound_panics' depends on axioms: [propext, Classical.choice, Quot.sound]
'Scouter.C26_set_behaviour' depends on axioms: [propext, Quot.sound]
'Scouter.C26_set_nonpositive_bound_panics' depends on axioms: [propext, Classical.choice, Quot.sound]
'Scouter.C27_bounded_and_tracked' depends on axioms: [propext, Classical.choice, Quot.sound]
'Scouter.C27_nonpositive_bound_loops' depends on axioms: [propext]
'Scouter.C27_size_wrong_after_remove' does not depend on any axioms
'Scouter.C27_readded_key_evicted_early' does not depend on any axioms
'Scouter.C28_no_deadlock_without_empty' depends on axioms: [propext, Classical.choice, Quot.sound]
'Scouter.C28_schedules_are_bounded' depends on axioms: [propext, Quot.sound]
'Scouter.C28_writer_excludes_readers' depends on axioms: [propext, Classical.choice, Quot.sound]
'Scouter.C28_empty_can_deadlock' depends on axioms: [propext]
'Scouter.C29_fragments' depends on axioms: [propext, Classical.choice, Quot.sound]
'Scouter.C29_reassembly' depends on axioms: [propext, Classical.choice, Quot.sound]
'Scouter.C29_zero_max_panics' depends on axioms: [propext, Classical.choice, Quot.sound]
'Scouter.C29_negative_max_loses' depends on axioms: [propext, Classical.choice, Quot.sound]
'Scouter.C29_small' depends on axioms: [propext, Classical.choice, Quot.sound]
'Scouter.C29_unconnected' depends on axioms: [propext, Classical.choice, Quot.sound]
'Scouter.C30_batches' depends on axioms: [propext, Classical.choice, Quot.sound]
'Scouter.C30_collector_gets_all' depends on axioms: [propext, Classical.choice, Quot.sound]
'Scouter.C30_limits' depends on axioms: [propext, Classical.choice, Quot.sound]
'Scouter.C31_packs_reach_collector' depends on axioms: [propext, Classical.choice, Quot.sound]
'Scouter.C31_queue_bounded' depends on axioms: [propext, Classical.choice, Quot.sound]
'Scouter.C31_add' depends on axioms: [propext, Quot.sound]
'Scouter.C31_sender_never_blocks' depends on axioms: [propext, Classical.choice, Quot.sound]
'Scouter.C31_exactly_once_in_order' depends on axioms: [propext, Classical.choice, Quot.sound]
'Scouter.C31_queue_size_zero' depends on axioms: [propext, Classical.choice, Quot.sound]
'Scouter.C31_eventually_delivered' depends on axioms: [propext, Classical.choice, Quot.sound]
'Scouter.C31_calls_fit' depends on axioms: [propext, Quot.sound]
'Scouter.C32_announcements' depends on axioms: [propext, Classical.choice, Quot.sound]
'Scouter.C32_returns_hash' depends on axioms: [propext, Classical.choice, Quot.sound]
'Scouter.C32_not_repeated' depends on axioms: [propext, Classical.choice, Quot.sound]
'Scouter.C32_reset_announces_again' depends on axioms: [propext, Classical.choice, Quot.sound]
'Scouter.C32_full_queue_loses_announcement' depends on axioms: [propext, Classical.choice, Quot.sound]
'Scouter.C32_collision_not_announced' depends on axioms: [propext, Classical.choice, Quot.sound]
'Scouter.C33_numbering_is_the_tree' depends on axioms: [propext, Classical.choice, Quot.sound]
'Scouter.C33_balanced_segment' depends on axioms: [propext, Classical.choice, Quot.sound]
'Scouter.C33_every_step_recorded_once' depends on axioms: [propext, Classical.choice, Quot.sound]
'Scouter.C33_indexes_sequential' depends on axioms: [propext, Classical.choice, Quot.sound]
'Scouter.C33_second_root_looks_like_a_child' depends on axioms: [propext, Classical.choice, Quot.sound]
'Scouter.C34_service_profile_complete' depends on axioms: [propext, Classical.choice, Quot.sound]
'Scouter.C34_service_profile_complete_however_ended' depends on axioms: [propext, Classical.choice, Quot.sound]
'Scouter.C34_slices' depends on axioms: [propext, Classical.choice, Quot.sound]
'Scouter.C34_all_sent_in_order' depends on axioms: [propext, Classical.choice, Quot.sound]
'Scouter.C34_discard_keeps_back_less_than_a_buffer' depends on axioms: [propext, Classical.choice, Quot.sound]
'Scouter.C34_limits_needed' depends on axioms: [propext]
'Scouter.C34_negative_limit_loses_steps' depends on axioms: [propext, Quot.sound]
'Scouter.C35_log_states_steps_sent_earlier' depends on axioms: [propext, Classical.choice, Quot.sound]
'Scouter.C35_log_undercounts_by_the_buffer' depends on axioms: [propext, Classical.choice, Quot.sound]
'Scouter.C35_small_service_logs_zero' depends on axioms: [propext, Classical.choice, Quot.sound]
'Scouter.C35_fails' depends on axioms: [propext, Classical.choice, Quot.sound]
'Scouter.C35_log_states_steps_sent_earlier_however_ended' depends on axioms: [propext, Classical.choice, Quot.sound]
'Scouter.Handlers.C36_once_in_any_life' depends on axioms: [propext, Classical.choice, Quot.sound]
'Scouter.C36_either_end_ends' depends on axioms: [propext, Classical.choice, Quot.sound]
'Scouter.C36_at_most_one_log' depends on axioms: [propext, Classical.choice, Quot.sound]
'Scouter.C36_counted_exactly_once' depends on axioms: [propext, Classical.choice, Quot.sound]
'Scouter.C36_never_over_counted' depends on axioms: [propext, Classical.choice, Quot.sound]
'Scouter.C36_exactly_one_log_without_sampling' depends on axioms: [propext, Classical.choice, Quot.sound]
'Scouter.C36_end_ends' depends on axioms: [propext, Classical.choice, Quot.sound]
'Scouter.C36_end_of_ended_service_is_inert' depends on axioms: [propext, Classical.choice, Quot.sound]
'Scouter.C37_at_most_one_log_per_ender' depends on axioms: [propext, Classical.choice, Quot.sound]
'Scouter.C37_at_least_one_log' depends on axioms: [propext, Classical.choice, Quot.sound]
'Scouter.C37_duplicates_are_possible' depends on axioms: [propext, Classical.choice, Quot.sound]
'Scouter.C37_serialised_ends_log_once' depends on axioms: [propext, Classical.choice, Quot.sound]
'Scouter.C38_failed_service_is_never_dropped' depends on axioms: [propext, Classical.choice, Quot.sound]
'Scouter.C38_failed_service_is_never_dropped_however_ended' depends on axioms: [propext, Classical.choice, Quot.sound]
'Scouter.C39_end_of_service_however_ended' depends on axioms: [propext, Classical.choice, Quot.sound]
'Scouter.C39_decision' depends on axioms: [propext, Quot.sound]
'Scouter.C39_first_matching_pattern_decides' depends on axioms: [propext, Quot.sound]
'Scouter.C39_off_drops_nothing' depends on axioms: [propext, Quot.sound]
'Scouter.C39_rate_100_keeps' depends on axioms: [propext, Quot.sound]
'Scouter.C39_rate_0_drops' depends on axioms: [propext, Quot.sound]
'Scouter.C39_keeping_draws' depends on axioms: [propext, Quot.sound]
'Scouter.C39_end_of_service' depends on axioms: [propext, Classical.choice, Quot.sound]
'Scouter.C40_nested_start_joins' depends on axioms: [propext, Classical.choice, Quot.sound]
'Scouter.C40_inner_end_ends_the_outer_service' depends on axioms: [propext, Classical.choice, Quot.sound]
'Scouter.C40_start_after_end_is_lost' depends on axioms: [propext, Classical.choice, Quot.sound]
'Scouter.C41_goroutine_is_linked' depends on axioms: [propext, Classical.choice, Quot.sound]
'Scouter.C41_inherited_service_is_linked' depends on axioms: [propext, Classical.choice, Quot.sound]
'Scouter.C41_global_id_is_the_root' depends on axioms: [propext, Classical.choice, Quot.sound]
'Scouter.C41_links_are_kept' depends on axioms: [propext, Classical.choice, Quot.sound]
'Scouter.C42_active_list_is_exact' depends on axioms: [propext, Classical.choice, Quot.sound]
'Scouter.C42_active_list_is_sound' depends on axioms: [propext, Classical.choice, Quot.sound]
'Scouter.C43_first_error_wins' depends on axioms: [propext, Classical.choice, Quot.sound]
'Scouter.C43_forced_mark_replaces' depends on axioms: [propext, Classical.choice, Quot.sound]
'Scouter.C43_error_stays' depends on axioms: [propext, Classical.choice, Quot.sound]
'Scouter.C43_nothing_else_sets_it' depends on axioms: [propext, Classical.choice, Quot.sound]
'Scouter.C43_starts_without_error' depends on axioms: [propext, Classical.choice, Quot.sound]
'Scouter.C44_no_trace_is_inert' depends on axioms: [propext, Classical.choice, Quot.sound]
'Scouter.C44_results' depends on axioms: [propext, Classical.choice, Quot.sound]
'Scouter.C45_service_counters' depends on axioms: [propext, Classical.choice, Quot.sound]
'Scouter.C45_value_counters' depends on axioms: [propext, Classical.choice, Quot.sound]
'Scouter.C46_service_figures_are_consistent' depends on axioms: [propext, Classical.choice, Quot.sound]
'Scouter.C47_refresh_is_up_to_date' depends on axioms: [propext, Classical.choice, Quot.sound]
'Scouter.C47_restored_file_ignored' depends on axioms: [propext, Classical.choice, Quot.sound]
'Scouter.C47_bare_environment_entry_panics' depends on axioms: [propext, Classical.choice, Quot.sound]
'Scouter.C48_precedence' depends on axioms: [propext, Classical.choice, Quot.sound]
'Scouter.C48_fields_read_their_own_key' depends on axioms: [propext, Classical.choice, Quot.sound]
'Scouter.C48_environment_value_cut' depends on axioms: [propext, Quot.sound]
'Scouter.C48_no_sampling_by_default' depends on axioms: [propext, Classical.choice, Quot.sound]
'Scouter.C48_sampling_defaults' depends on axioms: [propext, Classical.choice, Quot.sound]
'Scouter.Tcp.C49_one_reply_each' depends on axioms: [propext, Classical.choice, Quot.sound]
'Scouter.Tcp.C49_only_whole_replies' depends on axioms: [propext, Classical.choice, Quot.sound]
'Scouter.Tcp.C49_served_until_change' depends on axioms: [propext, Classical.choice, Quot.sound]
'Scouter.Tcp.C50_same_if_bodies_whole' depends on axioms: [propext, Classical.choice, Quot.sound]
'Scouter.Tcp.C50_broken_text_replaced' depends on axioms: [propext, Classical.choice, Quot.sound]
'Scouter.Tcp.C51_constant_pause' depends on axioms: [propext, Quot.sound]
'Scouter.Dump.C52_download_complete' depends on axioms: [propext, Classical.choice, Quot.sound]
'Scouter.Dump.C52_collector_gets_file' depends on axioms: [propext, Classical.choice, Quot.sound]
'Scouter.Dump.C52_growing_file' depends on axioms: [propext, Classical.choice, Quot.sound]
'Scouter.Dump.C52_stream_complete' depends on axioms: [propext, Classical.choice, Quot.sound]
'Scouter.Dump.C53_names_are_walked' depends on axioms: [propext, Classical.choice, Quot.sound]
'Scouter.Dump.C53_reads_only_inside' depends on axioms: [propext, Classical.choice, Quot.sound]
'Scouter.Dump.C53_deletes_only_inside' depends on axioms: [propext, Classical.choice, Quot.sound]
'Scouter.Dump.C53_deletes_one' depends on axioms: [propext, Classical.choice, Quot.sound]
'Scouter.Dump.C53_deletion_answers' depends on axioms: [propext, Classical.choice, Quot.sound]
'Scouter.Dump.C53_any_file_readable' depends on axioms: [propext, Classical.choice, Quot.sound]
'Scouter.Dump.C53_any_pprof_removable' depends on axioms: [propext, Classical.choice, Quot.sound]
'Scouter.C54_active_count' depends on axioms: [propext, Classical.choice, Quot.sound]
'Scouter.C54_figures_add_up' depends on axioms: [propext, Classical.choice, Quot.sound]
'Scouter.C54_all_services_seen' depends on axioms: [propext, Classical.choice, Quot.sound]
'Scouter.C55_short_input_long_list' depends on axioms: [propext, Classical.choice, Quot.sound]
'Scouter.C56_truncated_blob_is_padded' depends on axioms: [propext, Classical.choice, Quot.sound]
'Scouter.C57_dump_step_read_as_method' depends on axioms: [propext, Classical.choice, Quot.sound]
'Scouter.C58_fnv_single_byte_change' depends on axioms: [propext, Quot.sound]
'Scouter.C59_no_panic_escapes' depends on axioms: [propext, Classical.choice, Quot.sound]
'Scouter.C59_no_panic_at_all' depends on axioms: [propext, Classical.choice, Quot.sound]
'Scouter.C60_the_function_runs' depends on axioms: [propext, Classical.choice, Quot.sound]
'Scouter.Demo.C60_without_profile_buffer_the_function_is_lost' depends on axioms: [propext, Classical.choice, Quot.sound]
'Scouter.C61_log_carries_the_service' depends on axioms: [propext, Classical.choice, Quot.sound]
'Scouter.C61_http_log_carries_the_status' depends on axioms: [propext, Classical.choice, Quot.sound]
'Scouter.C61_http_end_differs_in_status_only' depends on axioms: [propext, Classical.choice, Quot.sound]
'Scouter.C62_clock_set_back' depends on axioms: [propext, Classical.choice, Quot.sound]
'Scouter.C63_listing_shows_what_is_in_effect' depends on axioms: [propext, Classical.choice, Quot.sound]
'Scouter.C63_listed_text_reads_back' depends on axioms: [propext, Classical.choice, Quot.sound]
'Scouter.C63_wide_number_listed_but_cut' depends on axioms: [propext, Classical.choice, Quot.sound]
'Scouter.C64_observers' depends on axioms: [propext, Classical.choice, Quot.sound]
'Scouter.C64_sampler_follows' depends on axioms: [propext]
'Scouter.Dump.C65_profiles_complete' depends on axioms: [propext, Quot.sound]
'Scouter.Dump.C65_thread_dump_lost' depends on axioms: [propext]
'Scouter.Dump.C65_unflushed_prefix' depends on axioms: [propext, Quot.sound]
'Scouter.Handlers.C66_active_list_exact' depends on axioms: [propext, Classical.choice, Quot.sound]
'Scouter.Handlers.C66_active_list_sound' depends on axioms: [propext, Classical.choice, Quot.sound]
'Scouter.Handlers.C67_thread_detail' depends on axioms: [propext, Classical.choice, Quot.sound]
'Scouter.Handlers.C67_wrong_parameters' depends on axioms: [propext, Classical.choice, Quot.sound]
'Scouter.Handlers.C68_saved_text_is_shown' depends on axioms: [propext, Classical.choice, Quot.sound]
'Scouter.Handlers.C68_answer_says_whether_saved' depends on axioms: [propext, Classical.choice, Quot.sound]
'Scouter.Handlers.C68_saved_text_in_effect' depends on axioms: [propext, Classical.choice, Quot.sound]
'Scouter.Handlers.C68_saved_without_effect' depends on axioms: [propext, Classical.choice, Quot.sound]
'Scouter.Handlers.C68_bare_environment_entry' depends on axioms: [propext, Classical.choice, Quot.sound]
'Scouter.Handlers.C69_listings' depends on axioms: [propext, Classical.choice, Quot.sound]
'Scouter.Handlers.C70_unknown_command' depends on axioms: [propext, Classical.choice, Quot.sound]
'Scouter.Handlers.C70_kind_of_answer' depends on axioms: [propext, Classical.choice, Quot.sound]
'Scouter.Handlers.C71_list_is_exact' depends on axioms: [propext, Classical.choice, Quot.sound]
'Scouter.Handlers.C71_binary_list_is_exact' depends on axioms: [propext, Classical.choice, Quot.sound]
'Scouter.Handlers.C71_listed_name_fetches' depends on axioms: [propext, Classical.choice, Quot.sound]
'Scouter.Handlers.C71_listed_binary_downloads' depends on axioms: [propext, Classical.choice, Quot.sound]
'Scouter.Handlers.C71_deeper_file_not_fetched' depends on axioms: [propext, Classical.choice, Quot.sound]
'Scouter.Handlers.C71_deleted_is_gone' depends on axioms: [propext, Classical.choice, Quot.sound]
'Scouter.Handlers.C71_paths_stay_distinct' depends on axioms: [propext, Classical.choice, Quot.sound]
'Scouter.Handlers.C72_announcement' depends on axioms: [propext, Classical.choice, Quot.sound]
'Scouter.Handlers.C72_tracing_uses_it' depends on axioms: [propext, Classical.choice, Quot.sound]
'Scouter.C73_message' depends on axioms: [propext, Classical.choice, Quot.sound]
'Scouter.C73_hashed_message' depends on axioms: [propext, Classical.choice, Quot.sound]
'Scouter.C73_parameterized_message' depends on axioms: [propext, Classical.choice, Quot.sound]
'Scouter.C73_given_step' depends on axioms: [propext, Classical.choice, Quot.sound]
'Scouter.C73_error_mark' depends on axioms: [propext, Classical.choice, Quot.sound]
'Scouter.C73_custom_method_start' depends on axioms: [propext, Classical.choice, Quot.sound]
'Scouter.C73_method_start' depends on axioms: [propext, Classical.choice, Quot.sound]
'Scouter.C73_method_end' depends on axioms: [propext, Classical.choice, Quot.sound]
'Scouter.C73_api_call_start' depends on axioms: [propext, Classical.choice, Quot.sound]
'Scouter.C73_api_call_end' depends on axioms: [propext, Classical.choice, Quot.sound]
'Scouter.C74_http_log_however_ended' depends on axioms: [propext, Classical.choice, Quot.sound]
'Scouter.C74_http_start' depends on axioms: [propext, Classical.choice, Quot.sound]
'Scouter.C74_configured_headers' depends on axioms: [propext, Classical.choice, Quot.sound]
'Scouter.C74_other_lines' depends on axioms: [propext, Classical.choice, Quot.sound]
'Scouter.C74_http_log' depends on axioms: [propext, Classical.choice, Quot.sound]
'Scouter.C74_service_start' depends on axioms: [propext, Classical.choice, Quot.sound]
'Scouter.C75_api_calls_add_up' depends on axioms: [propext, Classical.choice, Quot.sound]
'Scouter.C75_propagation' depends on axioms: [propext, Classical.choice, Quot.sound]
'Scouter.C76_inheritance' depends on axioms: [propext, Classical.choice, Quot.sound]
'Scouter.C76_child' depends on axioms: [propext, Classical.choice, Quot.sound]
'Scouter.C76_child_goroutine_begins' depends on axioms: [propext, Classical.choice, Quot.sound]
'Scouter.C77_name' depends on axioms: [propext, Classical.choice, Quot.sound]
'Scouter.C77_texts' depends on axioms: [propext, Classical.choice, Quot.sound]
'Scouter.C77_stream' depends on axioms: [propext, Classical.choice, Quot.sound]
'Scouter.C77_fixed' depends on axioms: [propext, Classical.choice, Quot.sound]
'Scouter.C77_log_after_any_history' depends on axioms: [propext, Classical.choice, Quot.sound]
'Scouter.C77_log_of_a_service' depends on axioms: [propext, Classical.choice, Quot.sound]
'Scouter.C77_log_however_ended' depends on axioms: [propext, Classical.choice, Quot.sound]
'Scouter.C78_real_time_pack' depends on axioms: [propext, Classical.choice, Quot.sound]
'Scouter.C78_five_minute_pack' depends on axioms: [propext, Classical.choice, Quot.sound]
'Scouter.C79_packs_count_the_services' depends on axioms: [propext, Classical.choice, Quot.sound]
'Scouter.C80_send_go_counter' depends on axioms: [propext, Classical.choice, Quot.sound]
'Scouter.C80_send_service_counter_swaps' depends on axioms: [propext, Classical.choice, Quot.sound]
'Scouter.C81_complete_however_ended' depends on axioms: [propext, Classical.choice, Quot.sound]
'Scouter.C81_stream' depends on axioms: [propext, Classical.choice, Quot.sound]
'Scouter.C81_recorded_steps_stay' depends on axioms: [propext, Classical.choice, Quot.sound]
'Scouter.C81_complete' depends on axioms: [propext, Classical.choice, Quot.sound]
'Scouter.C82_log_untouched_however_ended' depends on axioms: [propext, Classical.choice, Quot.sound]
'Scouter.C82_other_services_untouched' depends on axioms: [propext, Classical.choice, Quot.sound]
'Scouter.C82_profile_untouched' depends on axioms: [propext, Classical.choice, Quot.sound]
'Scouter.C82_log_untouched' depends on axioms: [propext, Classical.choice, Quot.sound]
'Scouter.C83_tells_however_ended' depends on axioms: [propext, Classical.choice, Quot.sound]
'Scouter.C83_received_decoded' depends on axioms: [propext, Classical.choice, Quot.sound]
'Scouter.C83_http_whole_life' depends on axioms: [propext, Classical.choice, Quot.sound]
'Scouter.C83_inherited_whole_life' depends on axioms: [propext, Classical.choice, Quot.sound]
'Scouter.C83_child_whole_life' depends on axioms: [propext, Classical.choice, Quot.sound]
'Scouter.C83_profile_tells_the_calls' depends on axioms: [propext, Classical.choice, Quot.sound]
'Scouter.C83_whole_life' depends on axioms: [propext, Classical.choice, Quot.sound]
'Scouter.C83_decoded' depends on axioms: [propext, Classical.choice, Quot.sound]
'Scouter.Handlers.C84_thread_dump' depends on axioms: [propext, Classical.choice, Quot.sound]
'Scouter.Handlers.C84_dump_fetched_by_name' depends on axioms: [propext, Classical.choice, Quot.sound]
'Scouter.Handlers.C84_answered_name_not_fetched' depends on axioms: [propext, Classical.choice, Quot.sound]
'Scouter.Handlers.C84_profile_triggers' depends on axioms: [propext, Classical.choice, Quot.sound]
'Scouter.Profiling.C85_mutex_puts_back' depends on axioms: [propext, Classical.choice, Quot.sound]
'Scouter.Profiling.C85_overlapping_mutex_profiles_leak' depends on axioms: [propext, Classical.choice, Quot.sound]
'Scouter.Profiling.C85_mutex_fraction_kept' depends on axioms: [propext, Classical.choice, Quot.sound]
'Scouter.Profiling.C85_block_profiling_off_afterwards' depends on axioms: [propext, Classical.choice, Quot.sound]
'Scouter.Profiling.C85_switched_on' depends on axioms: [propext, Classical.choice, Quot.sound]
'Scouter.Profiling.C85_one_cpu_profile' depends on axioms: [propext, Classical.choice, Quot.sound]
'Scouter.Profiling.C85_second_cpu_profile_empty' depends on axioms: [propext, Classical.choice, Quot.sound]
'Scouter.Profiling.C85_profile_complete' depends on axioms: [propext, Classical.choice, Quot.sound]
'Scouter.Profiling.C85_cpu_profile_complete' depends on axioms: [propext, Classical.choice, Quot.sound]
'Scouter.Profiling.C85_file_of_request' depends on axioms: [propext, Classical.choice, Quot.sound]
'Scouter.Profiling.C85_profile_downloads' depends on axioms: [propext, Classical.choice, Quot.sound]
'Scouter.Recorders.C86_taking_turns' depends on axioms: [propext, Classical.choice, Quot.sound]
'Scouter.Recorders.C86_nothing_invented' depends on axioms: [propext, Classical.choice, Quot.sound]
'Scouter.Recorders.C86_room_afterwards' depends on axioms: [propext, Classical.choice, Quot.sound]
'Scouter.Recorders.C86_no_panic_afterwards' depends on axioms: [propext, Classical.choice, Quot.sound]
'Scouter.Recorders.C86_complete_afterwards' depends on axioms: [propext, Classical.choice, Quot.sound]
'Scouter.Recorders.C86_count_covers_what_was_sent' depends on axioms: [propext, Classical.choice, Quot.sound]
'Scouter.Recorders.C86_a_step_can_be_lost' depends on axioms: [propext, Classical.choice, Quot.sound]
'Scouter.Recorders.C86_steps_can_be_sent_twice' depends on axioms: [propext]
'Scouter.Recorders.C86_a_call_can_panic' depends on axioms: [propext]
'Scouter.Recorders.C86_same_number' depends on axioms: [propext]
'Scouter.Recorders.C86_close_can_panic' depends on axioms: [propext]
'Scouter.Announcers.C87_announced_or_about_to_be' depends on axioms: [propext, Classical.choice, Quot.sound]
'Scouter.Announcers.C87_announced_in_the_end' depends on axioms: [propext, Classical.choice, Quot.sound]
'Scouter.Announcers.C87_at_most_once_per_call' depends on axioms: [propext, Classical.choice, Quot.sound]
'Scouter.Announcers.C87_can_be_announced_twice' depends on axioms: [propext, Classical.choice, Quot.sound]
'Scouter.Announcers.C87_hash_before_text' depends on axioms: [propext, Classical.choice, Quot.sound]
'Scouter.ListValue.C88_get_what_was_added' depends on axioms: [propext, Classical.choice, Quot.sound]
'Scouter.ListValue.C88_outside_panics' depends on axioms: [propext, Quot.sound]
'Scouter.ListValue.C88_same_after_transport' depends on axioms: [propext, Classical.choice, Quot.sound]
'Scouter.Iterating.C89_only_what_was_there' depends on axioms: [propext, Classical.choice, Quot.sound]
'Scouter.Iterating.C89_at_most_once_per_entry' depends on axioms: [propext, Classical.choice, Quot.sound]
'Scouter.Iterating.C89_who_stays_is_listed_once' depends on axioms: [propext, Classical.choice, Quot.sound]
'Scouter.Iterating.C89_the_call_can_end' depends on axioms: [propext, Classical.choice, Quot.sound]
'Scouter.Iterating.C89_can_be_listed_twice' depends on axioms: [propext, Quot.sound]
'Scouter.Iterating.C89_listed_when_gone' depends on axioms: [propext, Quot.sound]
'Scouter.LockOrder.C90_no_deadlock' depends on axioms: [propext, Classical.choice, Quot.sound]
'Scouter.LockOrder.C90_own_observers' depends on axioms: [propext, Quot.sound]
'Scouter.LockOrder.C90_every_schedule_ends' depends on axioms: [propext, Quot.sound]
'Scouter.LockOrder.C90_all_calls_end' depends on axioms: [propext, Classical.choice, Quot.sound]
'Scouter.LockOrder.C90_registering_observer_deadlocks' depends on axioms: [propext, Quot.sound]
'Scouter.LockOrder.C90_refreshing_observer_deadlocks' depends on axioms: [propext, Quot.sound]
'Scouter.ConcurrentMeter.C91_readings_are_fair' depends on axioms: [propext, Classical.choice, Quot.sound]
'Scouter.ConcurrentMeter.C91_undisturbed_reading' depends on axioms: [propext, Classical.choice, Quot.sound]
'Scouter.ConcurrentMeter.C91_every_call_recorded_once' depends on axioms: [propext, Classical.choice, Quot.sound]
'Scouter.ConcurrentMeter.C91_no_deadlock' depends on axioms: [propext, Quot.sound]
'Scouter.ConcurrentMeter.C91_all_calls_can_end' depends on axioms: [propext, Classical.choice, Quot.sound]
'Scouter.ConcurrentMeter.C91_torn_reading' depends on axioms: [propext, Classical.choice, Quot.sound]
'Scouter.ConcurrentMeter.C91_torn_error_rate' depends on axioms: [propext, Classical.choice, Quot.sound]
'Scouter.ConcurrentMeter.C91_slow_recording_misplaced' depends on axioms: [propext, Quot.sound]
'Scouter.C92_collector_obtains' depends on axioms: [propext, Classical.choice, Quot.sound]
'Scouter.C92_logs_at_collector' depends on axioms: [propext, Classical.choice, Quot.sound]
'Scouter.C93_unreadable_file_has_no_effect' depends on axioms: [propext, Classical.choice, Quot.sound]
'Scouter.C93_settings_without_a_file' depends on axioms: [propext, Classical.choice, Quot.sound]
'Scouter.C93_nameless_object' depends on axioms: [propext, Classical.choice, Quot.sound]
'Scouter.C93_recovers' depends on axioms: [propext, Classical.choice, Quot.sound]
'Scouter.Places.C94_places' depends on axioms: [propext, Classical.choice, Quot.sound]
'Scouter.Places.C94_dump_requests_stay_off_other_files' depends on axioms: [propext, Classical.choice, Quot.sound]
'Scouter.Places.C94_absolute_path_stays' depends on axioms: [propext, Classical.choice, Quot.sound]
'Scouter.Places.C94_chdir_immaterial' depends on axioms: [propext, Classical.choice, Quot.sound]
'Scouter.Places.C94_chdir_loses_configuration' depends on axioms: [propext, Classical.choice, Quot.sound]
'Scouter.Places.C94_start_needs_log_file' depends on axioms: [propext, Classical.choice, Quot.sound]
'Scouter.Reload.C95_call' depends on axioms: [propext, Classical.choice, Quot.sound]
'Scouter.Reload.C95_converges' depends on axioms: [propext, Classical.choice, Quot.sound]
'Scouter.Reload.C95_never_dialled_again' depends on axioms: [propext, Classical.choice, Quot.sound]
'Scouter.Reload.C95_zero_maximum_ends_the_program' depends on axioms: [propext, Classical.choice, Quot.sound]
'Scouter.Reload.C95_torn_address' depends on axioms: [propext, Classical.choice, Quot.sound]
'Scouter.Reload.C95_cut_off_by_a_reload' depends on axioms: [propext, Classical.choice, Quot.sound]
'Scouter.Marking.C96_first_error_stays' depends on axioms: [propext, Quot.sound]
'Scouter.Marking.C96_errors_not_forgotten' depends on axioms: [propext, Quot.sound]
'Scouter.Marking.C96_error_was_reported' depends on axioms: [propext, Quot.sound]
'Scouter.Marking.C96_failed_service_is_logged' depends on axioms: [propext, Quot.sound]
'Scouter.Marking.C96_api_calls_at_most_once' depends on axioms: [propext, Classical.choice, Quot.sound]
'Scouter.Marking.C96_taking_turns' depends on axioms: [propext, Classical.choice, Quot.sound]
'Scouter.Marking.C96_decision' depends on axioms: [propext]
'Scouter.Marking.C96_first_error_replaced' depends on axioms: [propext, Classical.choice, Quot.sound]
'Scouter.Marking.C96_empty_text_takes_error_away' depends on axioms: [propext, Classical.choice, Quot.sound]
'Scouter.Marking.C96_api_call_lost' depends on axioms: [propext, Quot.sound]
'Scouter.Marking.C96_failed_while_ending' depends on axioms: [propext, Classical.choice, Quot.sound]
'Scouter.Deciding.C97_decision_of_a_mixture' depends on axioms: [propext, Classical.choice, Quot.sound]
'Scouter.Deciding.C97_failed_service_kept' depends on axioms: [propext, Classical.choice, Quot.sound]
'Scouter.Deciding.C97_off_drops_nothing' depends on axioms: [propext, Classical.choice, Quot.sound]
'Scouter.Deciding.C97_full_rates_drop_nothing' depends on axioms: [propext, Classical.choice, Quot.sound]
'Scouter.Deciding.C97_one_option_is_atomic' depends on axioms: [propext, Classical.choice, Quot.sound]
'Scouter.Deciding.C97_settled' depends on axioms: [propext, Classical.choice, Quot.sound]
'Scouter.Deciding.C97_decision_ends' depends on axioms: [propext, Classical.choice, Quot.sound]
'Scouter.Deciding.C97_dropped_by_neither' depends on axioms: [propext, Classical.choice, Quot.sound]
'Scouter.Session.C98_beginning_of_the_stream' depends on axioms: [propext, Classical.choice, Quot.sound]
'Scouter.Session.C98_requests_carried_out' depends on axioms: [propext, Classical.choice, Quot.sound]
'Scouter.Session.C98_only_the_last_reply_is_cut' depends on axioms: [propext, Classical.choice, Quot.sound]
'Scouter.Session.C98_enough_room' depends on axioms: [propext, Classical.choice, Quot.sound]
'Scouter.Session.C98_lost_reply_request_done' depends on axioms: [propext, Classical.choice, Quot.sound]
'Scouter.Session.C98_answers_only_the_configured_collector' depends on axioms: [propext, Classical.choice, Quot.sound]
'Scouter.Session.C98_all_answered' depends on axioms: [propext, Classical.choice, Quot.sound]
'Scouter.Session.C98_stale_collector' depends on axioms: [propext, Classical.choice, Quot.sound]
'Scouter.Program.C99_ends_only' depends on axioms: [propext, Classical.choice, Quot.sound]
'Scouter.Program.C99_survives' depends on axioms: [propext, Classical.choice, Quot.sound]
'Scouter.Program.C99_ends_so' depends on axioms: [propext, Classical.choice, Quot.sound]
'Scouter.Program.C99_starts' depends on axioms: [propext, Classical.choice, Quot.sound]
'Scouter.Program.C99_starts_by_default' depends on axioms: [propext, Classical.choice, Quot.sound]
'Scouter.Program.C99_never_ends' depends on axioms: [propext, Classical.choice, Quot.sound]
'Scouter.Program.C99_counters_go_on' depends on axioms: [propext, Classical.choice, Quot.sound] 
