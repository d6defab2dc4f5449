# Axioms of the theorems of MANIFEST.json

Generated by `tools/axioms.py` from `#print axioms`.

## Classical.choice, Quot.sound, propext (399 theorems)

* `Upd.C01_unsigned_round_trip`
* `Upd.C02_signed_round_trip_partial`
* `Upd.C02_round_trip_iff`
* `Upd.C03_unsigned_wire_format`
* `Upd.C04_signed_wire_format_exact`
* `Upd.C04_signed_wire_format_partial`
* `Upd.C05_write_footprint`
* `Upd.C06_unambiguous`
* `Upd.C06_wire_injective`
* `Upd.C07_decoding_exact`
* `Upd.C07_signed_decoding_exact`
* `Upd.C07_decoding_total_partial`
* `Upd.C08_stable`
* `Upd.C08_reencoding`
* `Upd.C08_reencoding_unsigned`
* `Upd.C09_peers_agree_iff`
* `Upd.C09_never_wrong`
* `Upd.C09_peers_agree_partial`
* `Upd.C09_decoders_agree`
* `Upd.C10_eight_bytes`
* `Upd.C10_eight_bytes_read`
* `Upd.C10_byte_order_macro_only_write`
* `Upd.C10_signed_macro_only_write`
* `Upd.C10_macros_transparent_write_partial`
* `Upd.C10_macros_transparent_read_partial`
* `Upd.C10_macros_transparent_unsigned`
* `Upd.C11_other_values_round_trip`
* `Upd.C11_least_value_of_wide_type`
* `Upd.C11_least_value_sign_magnitude`
* `Upd.C11_least_value_ones_complement`
* `Upd.C11_least_value_representable`
* `Upd.C12_array`
* `Upd.C13_user_type`
* `Upd.C14_array_of_user_type_partial`
* `Upd.C15_tuple_layout`
* `Upd.C16_construct_get`
* `Upd.C17_set_get`
* `Upd.C19_refines_value_list`
* `Upd.C20_set_order`
* `Upd.C21_sub_view`
* `Upd.C21_sub_view_bytes`
* `Upd.C22_assignment`
* `Upd.C23_view_assignment_partial`
* `Upd.C23_alias`
* `Upd.C24_invoke`
* `Upd.C24_invoke_effect`
* `Upd.C25_iterator_view_partial`
* `Upd.C25_set_exact`
* `Upd.C26_keyring`
* `Upd.C26_index_type`
* `Upd.C27_key_index`
* `Upd.C27_distinct`
* `Upd.C28_at`
* `Upd.C28_clip`
* `Upd.C29_request_format`
* `Upd.C29_payload_length_partial`
* `Upd.C29_payload_length_builtin`
* `Upd.C29_payload_length_iff`
* `Upd.C30_prefix_free`
* `Upd.C30_unique_decodability`
* `Upd.C31_read_from`
* `Upd.C31_read_value`
* `Upd.C32_action_effect`
* `Upd.C32_action_call`
* `Upd.C32_action_throw`
* `Upd.C32_action_input_only`
* `Upd.C35_end_to_end`
* `Upd.C35_throw`
* `Upd.C36_unknown_index`
* `Upd.C36_unknown_index_keyring`
* `Upd.C37_other_index`
* `Upd.C37_replaced_index`
* `Upd.C37_keyring`
* `Upd.C38_which_action`
* `Upd.C39_loading`
* `Upd.C39_resolved`
* `Upd.C39_whole_request`
* `Upd.C40_loading`
* `Upd.C40_dropped`
* `Upd.C40_whole_index`
* `Upd.C41_framing_partial`
* `Upd.C41_any_bytes_partial`
* `Upd.C41_framing_exact`
* `Upd.C41_decodable_partial`
* `Upd.C42_faults_partial`
* `Upd.C42_input_buffer_partial`
* `Upd.C42_no_fault_partial`
* `Upd.C42_faults_any`
* `Upd.C42_overrun_iff`
* `Upd.C43_output_buffer_partial`
* `Upd.C43_overflow`
* `Upd.C43_overflow_iff`
* `Upd.C44_same_as_puts`
* `Upd.C44_exact_bytes`
* `Upd.C44_incomplete`
* `Upd.C44_never_loading`
* `Upd.C44_request`
* `Upd.C45_unread`
* `Upd.C45_write_to`
* `Upd.C46_departures`
* `Upd.C46_machine_partial`
* `Upd.C46_states`
* `Upd.C46_exact`
* `Upd.C47_half_duplex_partial`
* `Upd.C47_discipline_needed`
* `Upd.C47_machine_exact`
* `Upd.C47_exact`
* `Upd.C48_request`
* `Upd.C48_resolved`
* `Upd.C48_not_resolved`
* `Upd.C48_invalid_index`
* `Upd.C49_reply`
* `Upd.C49_no_reply`
* `Upd.C49_true_only_if`
* `Upd.C49_after_get`
* `Upd.C50_moved_from`
* `Upd.C51_exact`
* `Upd.C51_exact_single`
* `Upd.C51_forever`
* `Upd.C51_histories`
* `Upd.C51_throw_partial`
* `Upd.C51_stuck`
* `Upd.C52_resume`
* `Upd.C53_hook`
* `Upd.C53_hook_void`
* `Upd.C54_encode_exact`
* `Upd.C54_encode_partial`
* `Upd.C54_decode`
* `Upd.C54_decode_short`
* `Upd.C54_client_partial`
* `Upd.C55_lvalue_dangling`
* `Upd.C56_no_resolution_partial`
* `Upd.C56_resolution_exact`
* `Upd.C56_serializable_iff`
* `Upd.C57_default_tuple`
* `Upd.C58_while_output_partial`
* `Upd.C58_stale_byte`
* `Upd.C58_output_exact`
* `Upd.C58_resets_exact`
* `Upd.C58_reading_partial`
* `Upd.C59_replace`
* `Upd.C59_departures`
* `Upd.C59_midway`
* `Upd.C60_custom`
* `Upd.C60_input_needed`
* `Upd.C60_output_needed`
* `Upd.C61_blocking`
* `Upd.C61_blocking_unbuffered`
* `Upd.C61_pipelined`
* `Upd.C61_pipelined_unbuffered`
* `Upd.C62_hooked`
* `Upd.C62_hooked_unbuffered`
* `Upd.C62_replied`
* `Upd.C63_one_request_partial`
* `Upd.C63_response_partial`
* `Upd.C63_dropped`
* `Upd.C63_full_statement_is_false`
* `Upd.C64_dispatcher`
* `Upd.C64_unknown_index`
* `Upd.C64_action`
* `Upd.C64_key_write`
* `Upd.C64_key_read`
* `Upd.C64_buffered`
* `Upd.C64_buffered_read`
* `Upd.C64_buffered_write`
* `Upd.C64_in_place`
* `Upd.C65_conversion`
* `Upd.C65_set_get`
* `Upd.C65_construct_get`
* `Upd.C65_assignment`
* `Upd.C65_remote_call`
* `Upd.C66_hook_partial`
* `Upd.C66_exact`
* `Upd.C67_sequence`
* `Upd.C67_repeat`
* `Upd.C68_request`
* `Upd.C68_outcome`
* `Upd.C68_sequence`
* `Upd.C68_captures`
* `Upd.C69_replaced_by_source_partial`
* `Upd.C69_outcome_partial`
* `Upd.C69_destroyed`
* `Upd.C69_history_partial`
* `Upd.C70_write`
* `Upd.C70_round_trip`
* `Upd.C70_as_fields`
* `Upd.C70_field_not_set`
* `Upd.C71_send`
* `Upd.C71_receive`
* `Upd.C72_truncated_partial`
* `Upd.C72_ones_complement_negative`
* `Upd.C72_offset_binary_nonnegative`
* `Upd.C72_offset_binary_negative`
* `Upd.C72_offset_binary_largest`
* `Upd.C72_twos_complement`
* `Upd.C72_native`
* `Upd.C73_idle`
* `Upd.C73_interrupted`
* `Upd.C73_resynchronised`
* `Upd.C74_full_statement_is_false`
* `Upd.C74_names_partial`
* `Upd.C74_dispatcher_partial`
* `Upd.C74_qualified`
* `Upd.C74_overloads`
* `Upd.C74_bound_once`
* `Upd.C74_misnamed`
* `Upd.C74_regex`
* `Upd.C75_asynchronous`
* `Upd.C76_keys`
* `Upd.C76_older_caller`
* `Upd.C76_older_caller_unbuffered`
* `Upd.C76_newer_caller`
* `Upd.C76_boundary`
* `Upd.C77_transmission`
* `Upd.C77_transmissions`
* `Upd.C77_split`
* `Upd.C77_front_page`
* `Upd.C77_truncated`
* `Upd.C78_multimaster`
* `Upd.C78_reply_for_ever`
* `Upd.C79_pipelined`
* `Upd.C79_writing_first`
* `Upd.C80_replace`
* `Upd.C80_keys`
* `Upd.C83_offset`
* `Upd.C83_plain_partial`
* `Upd.C83_exact`
* `Upd.C83_full_statement_is_false`
* `Upd.C84_keys`
* `Upd.C84_by_value_partial`
* `Upd.C84_refused`
* `Upd.C85_history`
* `Upd.C85_set_byte`
* `Upd.C85_fill`
* `Upd.C86_copies`
* `Upd.C87_refinement`
* `Upd.C87_depth`
* `Upd.C87_lost`
* `Upd.C87_quiet_partial`
* `Upd.C87_overrun`
* `Upd.C87_read_from`
* `Upd.C88_request`
* `Upd.C88_dispatcher`
* `Upd.C88_write_to`
* `Upd.C88_process`
* `Upd.C88_reply`
* `Upd.C88_attempts`
* `Upd.C88_attempts_return`
* `Upd.C89_import`
* `Upd.C89_history`
* `Upd.C89_outcome`
* `Upd.C89_one_compiler`
* `Upd.C89_nested`
* `Upd.C89_full_statement_is_false`
* `Upd.C89_kept_partial`
* `Upd.C90_dispatcher`
* `Upd.C90_unknown_index`
* `Upd.C90_action`
* `Upd.C90_action_input`
* `Upd.C90_key_write`
* `Upd.C90_key_read`
* `Upd.C90_buffered`
* `Upd.C90_buffered_read`
* `Upd.C90_buffered_write`
* `Upd.C90_append`
* `Upd.C90_queue`
* `Upd.C90_overwrite`
* `Upd.C90_reread`
* `Upd.C90_pointer`
* `Upd.C91_encode`
* `Upd.C91_encode_refused`
* `Upd.C91_encode_unique`
* `Upd.C91_decode`
* `Upd.C91_decode_refused`
* `Upd.C91_function`
* `Upd.C91_well_typed`
* `Upd.C91_call_refused`
* `Upd.C91_call`
* `Upd.C91_call_other`
* `Upd.C91_call_same`
* `Upd.C91_put_refused`
* `Upd.C91_put`
* `Upd.C91_read_from`
* `Upd.C91_read_from_refused`
* `Upd.C91_write_to`
* `Upd.C91_replace`
* `Upd.C91_jam`
* `Upd.C92_relays_partial`
* `Upd.C92_receives_partial`
* `Upd.C92_ends`
* `Upd.C92_uninterrupted`
* `Upd.C92_response`
* `Upd.C93_exact_partial`
* `Upd.C93_serializable_partial`
* `Upd.C93_sent_partial`
* `Upd.C93_commutes`
* `Upd.C93_session_partial`
* `Upd.C94_agree`
* `Upd.C94_agree_unbuffered`
* `Upd.C94_fixed_width`
* `Upd.C94_shorter`
* `Upd.C94_longer`
* `Upd.C94_signed_sender`
* `Upd.C94_unsigned_sender`
* `Upd.C95_confined`
* `Upd.C95_intact`
* `Upd.C95_exact`
* `Upd.C96_relays`
* `Upd.C97_programs`
* `Upd.C98_alone`
* `Upd.C99_hub`
* `Upd.C100_nested`
* `Upd.C100_send`
* `Upd.C100_receive`
* `Upd.C101_interchange`
* `Upd.C101_packet`
* `Upd.C101_single_double`
* `Upd.C102_no_leak`
* `Upd.C103_enough_one`
* `Upd.C103_enough_two`
* `Upd.C103_single_iff`
* `Upd.C103_double_iff`
* `Upd.C103_smallest_partial`
* `Upd.C103_full_statement_is_false`
* `Upd.C104_forward`
* `Upd.C104_translate`
* `Upd.C104_same_format`
* `Upd.C104_verbatim`
* `Upd.C104_again`
* `Upd.C104_transparent`
* `Upd.C104_undecodable`
* `Upd.C105_dispatcher`
* `Upd.C105_holder`
* `Upd.C105_secrecy`
* `Upd.C105_exact`
* `Upd.C106_fair`
* `Upd.C106_full_statement_is_false`
* `Upd.C106_requests_partial`
* `Upd.C106_shorter`
* `Upd.C106_exact`
* `Upd.C106_tuple`
* `Upd.C106_overhead`
* `Upd.C106_single`
* `Upd.C106_response`
* `Upd.C107_distorted`
* `Upd.C107_distorted_unbuffered`
* `Upd.C107_arrives`
* `Upd.C107_unaltered`
* `Upd.C107_perfect`
* `Upd.C107_one_argument`
* `Upd.C107_lost`
* `Upd.C107_lost_unbuffered`
* `Upd.C108_messages`
* `Upd.C109_retried`
* `Upd.C109_retried_unbuffered`
* `Upd.C109_once`
* `Upd.C109_void`
* `Upd.C109_stale`
* `Upd.C110_layers`
* `Upd.C110_types`
* `Upd.C110_gateway`
* `Upd.C111_coroutines`
* `Upd.C111_coroutines_unbuffered`
* `Upd.C111_atomic`
* `Upd.C111_progress`
* `Upd.C111_alone`
* `Upd.C112_network`
* `Upd.C112_types`
* `Upd.C112_formats`
* `Upd.C113_unbuffered`
* `Upd.C113_put`
* `Upd.C113_read_from`
* `Upd.C113_write_to`
* `Upd.C113_process`
* `Upd.C114_dispatcher`
* `Upd.C114_action`
* `Upd.C114_send`
* `Upd.C114_receive`
* `Upd.C114_buffered`
* `Upd.C114_buffered_read`
* `Upd.C114_buffered_write`
* `Upd.C114_streams`
* `Upd.C114_stream_calls`
* `Upd.C115_object`
* `Upd.C115_tuple`
* `Upd.C115_set`
* `Upd.C115_send`
* `Upd.C115_receive`
* `Upd.C115_callback`
* `Upd.C115_dispatcher`
* `Upd.C115_integers`
* `Upd.C115_remote`
* `Upd.C115_dispatcher_integers`
* `Upd.C115_setting`
* `Upd.C115_buffered`
* `Upd.C116_specified`
* `Upd.C116_anywhere`
* `Upd.C116_whole_packets`
* `Upd.C117_pool`

## Quot.sound, propext (124 theorems)

* `Upd.C01_bool_round_trip`
* `Upd.C02_full_statement_is_false`
* `Upd.C03_bool_wire_format`
* `Upd.C03_unsigned_decoding`
* `Upd.C04_full_statement_is_false`
* `Upd.C05_write_frame`
* `Upd.C07_full_statement_is_false`
* `Upd.C07_bool_counterexample`
* `Upd.C07_unsigned_decoding_total`
* `Upd.C07_bool_decoding_exact`
* `Upd.C08_reencoding_bool`
* `Upd.C09_full_statement_is_false`
* `Upd.C10_byte_order_macro_only_read`
* `Upd.C10_signed_macro_only_read`
* `Upd.C10_full_statement_is_false`
* `Upd.C10_signed_macro_counterexample`
* `Upd.C14_full_statement_is_false`
* `Upd.C14_overlap_counterexample`
* `Upd.C14_gap_counterexample`
* `Upd.C15_gap_counterexample`
* `Upd.C18_set_frame`
* `Upd.C18_set_frame_bytes`
* `Upd.C23_full_statement_is_false`
* `Upd.C23_same_class_exact`
* `Upd.C24_not_called`
* `Upd.C25_full_statement_is_false`
* `Upd.C25_set_counterexample`
* `Upd.C25_get_exact`
* `Upd.C28_max`
* `Upd.C28_find`
* `Upd.C28_sum`
* `Upd.C29_full_statement_is_false`
* `Upd.C32_action_sizes`
* `Upd.C33_same_effect`
* `Upd.C33_full_statement_is_false`
* `Upd.C33_same_sizes_partial`
* `Upd.C33_same_input_size_iff`
* `Upd.C33_same_output_size_iff`
* `Upd.C34_empty_action`
* `Upd.C38_get_action`
* `Upd.C41_cuts_exist`
* `Upd.C41_cuts_unique`
* `Upd.C41_full_statement_is_false`
* `Upd.C42_full_statement_is_false`
* `Upd.C43_full_statement_is_false`
* `Upd.C45_fifo`
* `Upd.C46_full_statement_is_false`
* `Upd.C47_full_statement_is_false`
* `Upd.C50_moved_to`
* `Upd.C51_full_statement_is_false`
* `Upd.C54_full_statement_is_false`
* `Upd.C54_client_other`
* `Upd.C55_full_statement_is_false`
* `Upd.C55_rvalue_partial`
* `Upd.C55_lvalue_current_value`
* `Upd.C56_full_statement_is_false`
* `Upd.C56_empty_partial`
* `Upd.C56_after_test_partial`
* `Upd.C56_stale_byte`
* `Upd.C58_full_statement_is_false`
* `Upd.C59_foreign_keys`
* `Upd.C63_on_byte_sent`
* `Upd.C66_full_statement_is_false`
* `Upd.C67_accepted_iff`
* `Upd.C69_full_statement_is_false`
* `Upd.C72_full_statement_is_false`
* `Upd.C79_replaced_response`
* `Upd.C80_functions`
* `Upd.C80_objects_partial`
* `Upd.C80_pointers_partial`
* `Upd.C80_exact`
* `Upd.C81_writing_functions`
* `Upd.C82_exact`
* `Upd.C82_depth`
* `Upd.C82_enabled`
* `Upd.C82_fresh`
* `Upd.C82_others`
* `Upd.C82_failed_build`
* `Upd.C82_found_partial`
* `Upd.C82_full_statement_is_false`
* `Upd.C84_tuples`
* `Upd.C84_served`
* `Upd.C84_full_statement_is_false`
* `Upd.C84_arrays_not_checked`
* `Upd.C85_bounds`
* `Upd.C86_assignments`
* `Upd.C86_sources`
* `Upd.C86_full_statement_is_false`
* `Upd.C86_plain_arrays`
* `Upd.C86_assignment_partial`
* `Upd.C86_get_then_set`
* `Upd.C86_set_function`
* `Upd.C86_constness`
* `Upd.C87_full_statement_is_false`
* `Upd.C91_encode_range`
* `Upd.C91_get`
* `Upd.C92_store_first`
* `Upd.C92_torn_test`
* `Upd.C92_full_statement_is_false`
* `Upd.C93_full_statement_is_false`
* `Upd.C93_bottom_first`
* `Upd.C94_portable`
* `Upd.C96_new`
* `Upd.C97_snapshots`
* `Upd.C97_dangling`
* `Upd.C98_copyable`
* `Upd.C99_new`
* `Upd.C101_after_exception`
* `Upd.C102_values`
* `Upd.C102_live`
* `Upd.C102_exception`
* `Upd.C102_static`
* `Upd.C108_live`
* `Upd.C109_executions`
* `Upd.C109_idempotent`
* `Upd.C110_new`
* `Upd.C112_new`
* `Upd.C112_rows`
* `Upd.C113_send`
* `Upd.C113_receive`
* `Upd.C114_stream_client`
* `Upd.C114_pointers`
* `Upd.C116_overwritten`
* `Upd.C117_one_at_a_time`

## none (4 theorems)

* `Upd.C34_sizes_counterexample`
* `Upd.C55_rvalue_value`
* `Upd.C67_accepted`
* `Upd.C89_include`

## propext (21 theorems)

* `Upd.C12_builtin_types_are_packed`
* `Upd.C14_conforming`
* `Upd.C14_conforming_all`
* `Upd.C28_index_sequence`
* `Upd.C68_replace`
* `Upd.C80_full_statement_is_false`
* `Upd.C81_reading_functions`
* `Upd.C81_objects`
* `Upd.C81_qualifiers`
* `Upd.C81_overloaded`
* `Upd.C81_keys_accept_more`
* `Upd.C81_full_statement_is_false`
* `Upd.C89_hooks`
* `Upd.C89_failed`
* `Upd.C90_selection`
* `Upd.C90_selection_one`
* `Upd.C90_refused`
* `Upd.C90_refused_one`
* `Upd.C90_both`
* `Upd.C90_both_one`
* `Upd.C108_live_condition`
