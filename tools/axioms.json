{
"Syslog5424.C01_marshal_format": "propext, Classical.choice, Quot.sound",
"Syslog5424.C01_round_trip": "propext, Classical.choice, Quot.sound",
"Syslog5424.C02_decoder_grammar": "propext, Quot.sound",
"Syslog5424.C02_decoder_error": "propext, Quot.sound",
"Syslog5424.C03_ranges": "propext, Classical.choice, Quot.sound",
"Syslog5424.C03_split": "propext, Classical.choice, Quot.sound",
"Syslog5424.C03_combine": "propext, Classical.choice, Quot.sound",
"Syslog5424.C04_set_accepts": "propext, Quot.sound",
"Syslog5424.C04_set_error": "propext, Quot.sound",
"Syslog5424.C04_string_set": "propext, Quot.sound",
"Syslog5424.C04_string_named": "propext, Classical.choice, Quot.sound",
"Syslog5424.C04_string_unnamed_violated": "propext, Classical.choice, Quot.sound",
"Syslog5424.C04_string_safe_partial": "propext, Classical.choice, Quot.sound",
"Syslog5424.C04_string_rfc_partial": "propext, Classical.choice, Quot.sound",
"Syslog5424.C04_string_violated": "propext, Quot.sound",
"Syslog5424.C05_create_valid": "propext, Classical.choice, Quot.sound",
"Syslog5424.C05_setter_valid": "propext, Classical.choice, Quot.sound",
"Syslog5424.C05_valid_kept": "propext, Quot.sound",
"Syslog5424.C05_create_kept": "propext, Quot.sound",
"Syslog5424.C05_idempotent": "propext, Classical.choice, Quot.sound",
"Syslog5424.C05_pointwise": "propext, Classical.choice, Quot.sound",
"Syslog5424.C05_create_pointwise": "propext, Classical.choice, Quot.sound",
"Syslog5424.C06_exact_iff": "propext, Classical.choice, Quot.sound",
"Syslog5424.C06_setter_sequences": "propext, Classical.choice, Quot.sound",
"Syslog5424.C06_with_localhost_partial": "propext, Classical.choice, Quot.sound",
"Syslog5424.C06_localhost_violated": "none",
"Syslog5424.C06_last_wins": "propext, Classical.choice, Quot.sound",
"Syslog5424.C06_sd_added": "propext",
"Syslog5424.C07_text_trimmed": "propext, Classical.choice, Quot.sound",
"Syslog5424.C07_same_text": "none",
"Syslog5424.C07_idempotent": "propext, Classical.choice, Quot.sound",
"Syslog5424.C07_prefix": "propext, Classical.choice, Quot.sound",
"Syslog5424.C08_grammar": "propext, Classical.choice, Quot.sound",
"Syslog5424.C08_created": "propext, Classical.choice, Quot.sound",
"Syslog5424.C08_bad_key": "propext",
"Syslog5424.C09_nil_transport_partial": "propext, Classical.choice, Quot.sound",
"Syslog5424.C09_nil_accepts": "propext, Classical.choice, Quot.sound",
"Syslog5424.C09_never_hangs": "propext, Classical.choice, Quot.sound",
"Syslog5424.C09_terminated_panics_exactly_partial": "propext, Classical.choice, Quot.sound",
"Syslog5424.C09_rfc5425_panics_exactly_partial": "propext, Classical.choice, Quot.sound",
"Syslog5424.C09_no_text_violated": "propext",
"Syslog5424.C10_accessors": "propext, Classical.choice, Quot.sound",
"Syslog5424.C10_structuredData_partial": "propext, Classical.choice, Quot.sound",
"Syslog5424.C10_short_element_violated": "propext",
"Syslog5424.C10_zero_violated": "propext, Classical.choice, Quot.sound",
"Syslog5424.C11_round_trip_partial": "propext, Classical.choice, Quot.sound",
"Syslog5424.C11_no_params_violated": "propext, Quot.sound",
"Syslog5424.C12_text_survives_iff_partial": "propext, Classical.choice, Quot.sound",
"Syslog5424.C12_text_violated": "propext, Quot.sound",
"Syslog5424.C13_nil_lossless": "propext, Classical.choice, Quot.sound",
"Syslog5424.C13_terminated_lossless": "propext, Classical.choice, Quot.sound",
"Syslog5424.C13_rfc5425_lossless_partial": "propext, Classical.choice, Quot.sound",
"Syslog5424.C13_truncated_violated": "propext",
"Syslog5424.C13_separator_violated": "propext",
"Syslog5424.C13_dash_separator": "propext, Classical.choice, Quot.sound",
"Syslog5424.C14_identity_partial": "propext, Classical.choice, Quot.sound",
"Syslog5424.C14_identity_unregistered_partial": "propext, Classical.choice, Quot.sound",
"Syslog5424.C14_identity_timequality_partial": "propext, Classical.choice, Quot.sound",
"Syslog5424.C14_timequality_violated": "propext, Quot.sound",
"Syslog5424.C14_timequality_iff": "propext, Classical.choice, Quot.sound",
"Syslog5424.C15_exact_iff": "propext, Classical.choice, Quot.sound",
"Syslog5424.C15_format": "propext, Classical.choice, Quot.sound",
"Syslog5424.C15_round_trip_partial": "propext, Classical.choice, Quot.sound",
"Syslog5424.C15_short_frame_violated": "propext, Quot.sound",
"Syslog5424.C16_round_trip": "propext, Quot.sound",
"Syslog5424.C16_cut": "propext, Quot.sound",
"Syslog5424.C16_format": "propext, Quot.sound",
"Syslog5424.C17_incomplete_waits": "propext, Classical.choice, Quot.sound",
"Syslog5424.C18_frame_in_buffer_partial": "propext, Classical.choice, Quot.sound",
"Syslog5424.C18_panics_exactly_partial": "propext, Classical.choice, Quot.sound",
"Syslog5424.C18_negative_header_violated": "none",
"Syslog5424.C18_lenient_header": "none",
"Syslog5424.C19_rfc5425_one_frame": "propext, Classical.choice, Quot.sound",
"Syslog5424.C19_rfc5425_any_text": "propext, Classical.choice, Quot.sound",
"Syslog5424.C19_terminated_partial": "propext, Classical.choice, Quot.sound",
"Syslog5424.C19_terminated_received_partial": "propext, Classical.choice, Quot.sound",
"Syslog5424.C19_terminator_violated": "propext, Classical.choice, Quot.sound",
"Syslog5424.C19_forged_violated": "propext, Quot.sound",
"Syslog5424.C20_encoded_form": "propext",
"Syslog5424.C20_marshal_map": "propext, Quot.sound",
"Syslog5424.C20_tokenizer": "propext, Quot.sound",
"Syslog5424.C20_unescape": "propext",
"Syslog5424.C20_tokenizer_sound": "propext, Quot.sound",
"Syslog5424.C20_injective": "propext, Quot.sound",
"Syslog5424.C20_empty_key_raw": "propext, Quot.sound",
"Syslog5424.C21_order_independent": "propext, Classical.choice, Quot.sound",
"Syslog5424.C21_increasing": "propext, Classical.choice, Quot.sound",
"Syslog5424.C21_nil_map": "propext",
"Syslog5424.C21_exact": "propext, Classical.choice, Quot.sound",
"Syslog5424.C22_encode_decode_partial": "propext, Classical.choice, Quot.sound",
"Syslog5424.C22_decode_encode": "propext, Classical.choice, Quot.sound",
"Syslog5424.C22_decode_encode_exact": "propext, Classical.choice, Quot.sound",
"Syslog5424.C22_decodes_iff": "propext, Classical.choice, Quot.sound",
"Syslog5424.C22_total": "propext, Classical.choice, Quot.sound",
"Syslog5424.C22_no_params_violated": "propext, Classical.choice, Quot.sound",
"Syslog5424.C23_error_iff": "propext, Classical.choice, Quot.sound",
"Syslog5424.C23_panics_exactly_partial": "propext, Classical.choice, Quot.sound",
"Syslog5424.C23_zero_accuracy_violated": "propext, Quot.sound",
"Syslog5424.C23_remote_violated": "propext, Quot.sound",
"Syslog5424.C23_decoder_valid": "propext, Classical.choice, Quot.sound",
"Syslog5424.C23_round_trip_partial": "propext, Classical.choice, Quot.sound",
"Syslog5424.C23_decoder_reads": "propext, Classical.choice, Quot.sound",
"Syslog5424.C24_never_panics_partial": "propext, Classical.choice, Quot.sound",
"Syslog5424.C24_panics_exactly_partial": "propext, Classical.choice, Quot.sound",
"Syslog5424.C24_short_element_violated": "propext",
"Syslog5424.C24_generic_partial": "propext, Quot.sound",
"Syslog5424.C25_empty": "propext, Quot.sound",
"Syslog5424.C25_concat": "propext, Quot.sound",
"Syslog5424.C25_ok_iff": "propext, Quot.sound",
"Syslog5424.C25_error": "propext, Quot.sound",
"Syslog5424.C25_message_error": "propext, Quot.sound",
"Syslog5424.C25_message_ok": "propext, Quot.sound",
"Syslog5424.C25_message_string": "propext, Quot.sound",
"Syslog5424.C25_list_string": "propext, Quot.sound",
"Syslog5424.C25_not_caught": "propext, Quot.sound",
"Syslog5424.C26_first_wins": "propext, Classical.choice, Quot.sound",
"Syslog5424.C26_register_adds": "propext, Classical.choice, Quot.sound",
"Syslog5424.C26_no_duplicates": "propext, Classical.choice, Quot.sound",
"Syslog5424.C26_order_independent": "propext, Classical.choice, Quot.sound",
"Syslog5424.C26_unknown": "propext",
"Syslog5424.C27_struct_partial": "propext, Classical.choice, Quot.sound",
"Syslog5424.C27_errors_partial": "propext, Classical.choice, Quot.sound",
"Syslog5424.C27_root_error": "propext",
"Syslog5424.C27_root_violated": "propext",
"Syslog5424.C27_mandatory_violated": "propext, Classical.choice, Quot.sound",
"Syslog5424.C27_panics_violated": "propext",
"Syslog5424.C27_array_error_violated": "propext",
"Syslog5424.C27_exact": "propext, Classical.choice, Quot.sound",
"Syslog5424.C27_exact_unique": "propext, Quot.sound",
"Syslog5424.C28_original_partial": "propext, Classical.choice, Quot.sound",
"Syslog5424.C28_extended_once_partial": "propext, Classical.choice, Quot.sound",
"Syslog5424.C28_no_room_partial": "propext, Classical.choice, Quot.sound",
"Syslog5424.C28_sibling_violated": "propext, Quot.sound",
"Syslog5424.C29_new": "propext, Quot.sound",
"Syslog5424.C29_filter": "propext, Classical.choice, Quot.sound",
"Syslog5424.C30_priority": "propext, Classical.choice, Quot.sound",
"Syslog5424.C31_derive_partial": "propext, Classical.choice, Quot.sound",
"Syslog5424.C31_reach": "propext, Classical.choice, Quot.sound",
"Syslog5424.C31_devnull": "none",
"Syslog5424.C31_msgid_violated": "propext",
"Syslog5424.C32_exact_iff": "propext, Classical.choice, Quot.sound",
"Syslog5424.C32_valid_partial": "propext, Classical.choice, Quot.sound",
"Syslog5424.C32_without_sub": "propext, Classical.choice, Quot.sound",
"Syslog5424.C32_sub_violated": "propext, Quot.sound",
"Syslog5424.C33_write": "propext, Classical.choice, Quot.sound",
"Syslog5424.C33_log": "propext, Classical.choice, Quot.sound",
"Syslog5424.C33_logger": "propext, Classical.choice, Quot.sound",
"Syslog5424.C34_exactly_once": "propext, Quot.sound",
"Syslog5424.C34_prefix": "propext, Quot.sound",
"Syslog5424.C34_monotone": "propext, Quot.sound",
"Syslog5424.C35_end_flushes": "propext, Quot.sound",
"Syslog5424.C36_causes_partial": "propext, Quot.sound",
"Syslog5424.C36_no_failure_partial": "propext, Quot.sound",
"Syslog5424.C36_end_violated": "propext, Quot.sound",
"Syslog5424.C37_boundary_partial": "propext, Quot.sound",
"Syslog5424.C37_goes_on": "propext, Quot.sound",
"Syslog5424.C37_first_partial": "propext, Quot.sound",
"Syslog5424.C37_datagram_partial": "propext, Quot.sound",
"Syslog5424.C37_reconnect_violated": "propext, Quot.sound",
"Syslog5424.C38_write_errors_violated": "propext, Quot.sound",
"Syslog5424.C38_connect_errors_violated": "propext, Quot.sound",
"Syslog5424.C38_lock_bound_partial": "propext, Classical.choice, Quot.sound",
"Syslog5424.C38_lock_progress_partial": "propext, Quot.sound",
"Syslog5424.C38_end_returns_partial": "propext, Quot.sound",
"Syslog5424.C39_flush": "propext, Quot.sound",
"Syslog5424.C39_progress": "propext, Quot.sound",
"Syslog5424.C39_after_end": "propext, Quot.sound",
"Syslog5424.C39_lost_violated": "propext, Quot.sound",
"Syslog5424.C40_returned": "propext, Classical.choice, Quot.sound",
"Syslog5424.C40_crashes_exactly": "propext, Classical.choice, Quot.sound",
"Syslog5424.C40_reassembly_partial": "propext, Classical.choice, Quot.sound",
"Syslog5424.C40_all_delivered_partial": "propext, Classical.choice, Quot.sound",
"Syslog5424.C40_short_frames_partial": "propext, Classical.choice, Quot.sound",
"Syslog5424.C40_short_frame_violated": "propext, Classical.choice, Quot.sound",
"Syslog5424.C41_segmentation_violated": "propext, Classical.choice, Quot.sound",
"Syslog5424.C41_reassembly_partial": "propext, Classical.choice, Quot.sound",
"Syslog5424.C41_cut_after_dash_violated": "propext, Classical.choice, Quot.sound",
"Syslog5424.C41_crashes_exactly": "propext, Classical.choice, Quot.sound",
"Syslog5424.C41_no_text_violated": "propext, Classical.choice, Quot.sound",
"Syslog5424.C41_structured_data_violated": "propext, Classical.choice, Quot.sound",
"Syslog5424.C42_room_partial": "propext, Classical.choice, Quot.sound",
"Syslog5424.C42_progress_partial": "propext, Classical.choice, Quot.sound",
"Syslog5424.C42_stall_violated": "propext, Classical.choice, Quot.sound",
"Syslog5424.C42_stuck_exactly": "propext, Classical.choice, Quot.sound",
"Syslog5424.C42_room_lines_partial": "propext, Classical.choice, Quot.sound",
"Syslog5424.C43_immutable": "propext, Classical.choice, Quot.sound",
"Syslog5424.C44_order": "propext, Classical.choice, Quot.sound",
"Syslog5424.C44_nothing_else": "propext, Classical.choice, Quot.sound",
"Syslog5424.C44_progress": "propext",
"Syslog5424.C44_queue_bound": "propext, Quot.sound",
"Syslog5424.C44_realised": "propext, Classical.choice, Quot.sound",
"Syslog5424.C45_datagram_violated": "propext, Quot.sound",
"Syslog5424.C45_datagram_double_close_violated": "propext",
"Syslog5424.C45_datagram_early_partial": "propext, Quot.sound",
"Syslog5424.C45_end_violated": "propext, Quot.sound",
"Syslog5424.C45_doomed_violated": "propext, Quot.sound",
"Syslog5424.C45_accept_blocks_violated": "propext, Quot.sound",
"Syslog5424.C45_one_accept_partial": "propext, Quot.sound",
"Syslog5424.C45_causes_partial": "propext, Quot.sound",
"Syslog5424.C46_datagram_close_violated": "propext, Quot.sound",
"Syslog5424.C46_accept_error_violated": "propext, Quot.sound",
"Syslog5424.C46_reported_partial": "propext, Classical.choice, Quot.sound",
"Syslog5424.C47_exact": "propext, Quot.sound",
"Syslog5424.C47_exact_iff": "propext, Quot.sound",
"Syslog5424.C47_in_order_partial": "propext, Quot.sound",
"Syslog5424.C47_progress": "propext, Quot.sound",
"Syslog5424.C47_truncated_violated": "propext, Quot.sound",
"Syslog5424.C48_networks": "propext, Quot.sound",
"Syslog5424.C48_unknown": "propext",
"Syslog5424.C48_options": "propext",
"Syslog5424.C48_destination": "propext, Quot.sound",
"Syslog5424.C48_default": "propext, Quot.sound",
"Syslog5424.C49_guess": "propext, Quot.sound",
"Syslog5424.C49_tcp": "propext, Quot.sound",
"Syslog5424.C50_search": "propext, Quot.sound",
"Syslog5424.C50_address": "propext, Quot.sound",
"Syslog5424.C50_remembered": "propext, Quot.sound",
"Syslog5424.C51_panics_iff": "propext, Classical.choice, Quot.sound",
"Syslog5424.C51_connect_partial": "propext, Quot.sound",
"Syslog5424.C51_no_address_violated": "propext, Classical.choice, Quot.sound",
"Syslog5424.C52_format_parse": "propext, Classical.choice, Quot.sound",
"Syslog5424.C52_timestamp_of_frame": "propext, Classical.choice, Quot.sound",
"Syslog5424.C52_round_trip": "propext, Classical.choice, Quot.sound",
"Syslog5424.C52_seconds_offset": "propext, Quot.sound",
"Syslog5424.C52_other_years": "propext, Classical.choice, Quot.sound",
"Syslog5424.C53_cut_violated": "propext, Classical.choice, Quot.sound",
"Syslog5424.C53_in_order_partial": "propext, Classical.choice, Quot.sound",
"Syslog5424.C53_complete_partial": "propext, Classical.choice, Quot.sound",
"Syslog5424.C53_end_partial": "propext, Classical.choice, Quot.sound",
"Syslog5424.C53_reconnect_partial": "propext, Classical.choice, Quot.sound",
"Syslog5424.C53_all_connections_partial": "propext, Classical.choice, Quot.sound",
"Syslog5424.C53_receive_partial": "propext, Classical.choice, Quot.sound",
"Syslog5424.C53_writev_partial": "propext, Classical.choice, Quot.sound",
"Syslog5424.C54_reads_partial": "propext, Classical.choice, Quot.sound",
"Syslog5424.C54_recent": "propext, Classical.choice, Quot.sound",
"Syslog5424.C54_unreadable": "propext, Classical.choice, Quot.sound",
"Syslog5424.C54_leap_violated": "propext, Classical.choice, Quot.sound",
"Syslog5424.C54_ahead_violated": "propext, Classical.choice, Quot.sound",
"Syslog5424.C54_exact": "propext, Classical.choice, Quot.sound",
"Syslog5424.C55_result_partial": "propext",
"Syslog5424.C55_replaced_partial": "propext",
"Syslog5424.C55_reported_partial": "propext",
"Syslog5424.C55_destroys_violated": "propext",
"Syslog5424.C55_endless_violated": "propext",
"Syslog5424.C56_once_partial": "propext, Quot.sound",
"Syslog5424.C56_blocks_partial": "propext, Classical.choice, Quot.sound",
"Syslog5424.C56_uninterrupted": "propext, Quot.sound",
"Syslog5424.C56_race_violated": "propext",
"Syslog5424.C56_double_close_violated": "propext, Quot.sound",
"Syslog5424.C57_safe_partial": "propext, Classical.choice, Quot.sound",
"Syslog5424.C57_after_first_partial": "propext, Classical.choice, Quot.sound",
"Syslog5424.C57_race_violated": "propext, Quot.sound",
"Syslog5424.C58_leak_violated": "propext, Quot.sound",
"Syslog5424.C58_closed_partial": "propext, Quot.sound",
"Syslog5424.C59_reported": "propext, Quot.sound",
"Syslog5424.C59_after_end": "propext, Quot.sound",
"Syslog5424.C60_eof_ends": "propext, Quot.sound",
"Syslog5424.C60_read_error_violated": "propext, Quot.sound",
"Syslog5424.C61_bad_payload_partial": "propext, Classical.choice, Quot.sound",
"Syslog5424.C61_poisoned_violated": "propext, Classical.choice, Quot.sound",
"Syslog5424.C61_lines_silent_violated": "propext, Classical.choice, Quot.sound",
"Syslog5424.C61_merged_violated": "propext, Classical.choice, Quot.sound",
"Syslog5424.C62_terminates": "propext, Classical.choice, Quot.sound",
"Syslog5424.C62_panics_only_partial": "propext, Classical.choice, Quot.sound",
"Syslog5424.C62_remote_crash_violated": "propext, Classical.choice, Quot.sound",
"Syslog5424.C63_unread_errors_violated": "propext, Quot.sound",
"Syslog5424.C63_room_partial": "propext",
"Syslog5424.C63_one_connection_violated": "propext, Quot.sound",
"Syslog5424.C64_epoch": "propext, Classical.choice, Quot.sound",
"Syslog5424.C64_numbers": "propext, Classical.choice, Quot.sound",
"Syslog5424.C65_delta_partial": "propext, Classical.choice, Quot.sound",
"Syslog5424.C65_overflow_violated": "propext",
"Syslog5424.C65_exact_iff": "propext, Classical.choice, Quot.sound",
"Syslog5424.C66_terminated_violated": "propext, Classical.choice, Quot.sound",
"Syslog5424.C66_rfc5425_violated": "propext, Classical.choice, Quot.sound",
"Syslog5424.C66_frames_before_partial": "propext, Classical.choice, Quot.sound",
"Syslog5424.C67_no_effect_violated": "none",
"Syslog5424.C67_round_trip_violated": "propext",
"Syslog5424.C67_invalid_target_partial": "propext, Quot.sound",
"Syslog5424.C68_identifier_partial": "propext, Classical.choice, Quot.sound",
"Syslog5424.C68_unknown_violated": "propext, Quot.sound",
"Syslog5424.C68_string_violated": "propext, Classical.choice, Quot.sound",
"Syslog5424.C68_pointer": "propext, Quot.sound",
"Syslog5424.C68_enterprise": "propext",
"Syslog5424.C68_key": "propext, Classical.choice, Quot.sound",
"Syslog5424.C69_reencode_violated": "propext, Quot.sound",
"Syslog5424.C69_parameters_violated": "propext, Classical.choice, Quot.sound",
"Syslog5424.C69_registered": "propext, Classical.choice, Quot.sound",
"Syslog5424.C70_closed_violated": "propext, Quot.sound",
"Syslog5424.C70_open_partial": "propext, Quot.sound",
"Syslog5424.C70_next_sender_violated": "propext, Quot.sound",
"Syslog5424.C71_dial_violated": "propext, Quot.sound",
"Syslog5424.C71_end_violated": "propext, Quot.sound",
"Syslog5424.C71_crash_violated": "propext, Quot.sound",
"Syslog5424.C71_reported_partial": "propext, Quot.sound",
"Syslog5424.C72_cut_violated": "propext, Classical.choice, Quot.sound",
"Syslog5424.C72_cut_not_sent_violated": "propext, Classical.choice, Quot.sound",
"Syslog5424.C72_in_order_partial": "propext, Classical.choice, Quot.sound",
"Syslog5424.C72_complete_partial": "propext, Classical.choice, Quot.sound",
"Syslog5424.C72_end_partial": "propext, Classical.choice, Quot.sound",
"Syslog5424.C72_reconnect_partial": "propext, Classical.choice, Quot.sound",
"Syslog5424.C72_all_connections_partial": "propext, Classical.choice, Quot.sound",
"Syslog5424.C72_crash_violated": "propext, Classical.choice, Quot.sound",
"Syslog5424.C72_writev_partial": "propext, Classical.choice, Quot.sound",
"Syslog5424.C73_crash_violated": "propext, Classical.choice, Quot.sound",
"Syslog5424.C73_sent": "propext, Classical.choice, Quot.sound",
"Syslog5424.C73_received_partial": "propext, Classical.choice, Quot.sound",
"Syslog5424.C73_complete_partial": "propext, Classical.choice, Quot.sound",
"Syslog5424.C73_lines_received_partial": "propext, Classical.choice, Quot.sound",
"Syslog5424.C73_all_connections_partial": "propext, Classical.choice, Quot.sound",
"Syslog5424.C73_lines_all_connections_partial": "propext, Classical.choice, Quot.sound",
"Syslog5424.C74_each_datagram_partial": "propext, Classical.choice, Quot.sound",
"Syslog5424.C74_received_partial": "propext, Classical.choice, Quot.sound",
"Syslog5424.C74_any_size_partial": "propext, Classical.choice, Quot.sound",
"Syslog5424.C74_any_size_lines_partial": "propext, Classical.choice, Quot.sound",
"Syslog5424.C74_stall_violated": "propext, Classical.choice, Quot.sound",
"Syslog5424.C75_no_automatic_flush": "propext, Quot.sound",
"Syslog5424.C75_only_after_end": "propext, Classical.choice, Quot.sound",
"Syslog5424.C76_same": "propext, Classical.choice, Quot.sound",
"Syslog5424.C76_converse": "propext, Quot.sound",
"Syslog5424.C76_exactly_once": "propext, Classical.choice, Quot.sound",
"Syslog5424.C76_end_flushes": "propext, Classical.choice, Quot.sound",
"Syslog5424.C76_flush": "propext, Classical.choice, Quot.sound",
"Syslog5424.C76_first": "propext, Classical.choice, Quot.sound",
"Syslog5424.C76_reported": "propext, Classical.choice, Quot.sound",
"Syslog5424.C76_datagrams": "propext",
"Syslog5424.C77_one_by_one": "propext, Classical.choice, Quot.sound",
"Syslog5424.C77_real_time": "propext, Classical.choice, Quot.sound",
"Syslog5424.C77_program_order": "propext, Classical.choice, Quot.sound",
"Syslog5424.C77_first_wins": "propext, Classical.choice, Quot.sound",
"Syslog5424.C77_returns_partial": "propext, Classical.choice, Quot.sound",
"Syslog5424.C77_lock_free": "propext, Classical.choice, Quot.sound",
"Syslog5424.C77_reentrant_violated": "propext, Classical.choice, Quot.sound",
"Syslog5424.C77_package": "propext, Classical.choice, Quot.sound",
"Syslog5424.C78_injective": "propext, Classical.choice, Quot.sound",
"Syslog5424.C78_received": "propext, Classical.choice, Quot.sound",
"Syslog5424.C78_arrives_partial": "propext, Classical.choice, Quot.sound",
"Syslog5424.C78_names": "propext, Classical.choice, Quot.sound",
"Syslog5424.C78_key_violated": "propext, Quot.sound",
"Syslog5424.C78_forged_violated": "propext, Classical.choice, Quot.sound",
"Syslog5424.C78_tag_violated": "propext, Classical.choice, Quot.sound",
"Syslog5424.C79_cut_from_wire": "propext, Classical.choice, Quot.sound",
"Syslog5424.C79_receive": "propext, Classical.choice, Quot.sound",
"Syslog5424.C80_no_number": "propext, Classical.choice, Quot.sound",
"Syslog5424.C80_functional": "propext, Quot.sound",
"Syslog5424.C80_decodes": "propext, Classical.choice, Quot.sound",
"Syslog5424.C80_crashes_exactly": "propext, Classical.choice, Quot.sound",
"Syslog5424.C80_segmentation": "propext, Classical.choice, Quot.sound",
"Syslog5424.C80_receive": "propext, Classical.choice, Quot.sound",
"Syslog5424.C81_nil_exactly": "propext, Classical.choice, Quot.sound",
"Syslog5424.C81_no_message": "propext, Classical.choice, Quot.sound",
"Syslog5424.C81_total": "propext, Classical.choice, Quot.sound",
"Syslog5424.C81_unique": "propext, Classical.choice, Quot.sound",
"Syslog5424.C81_position": "propext, Classical.choice, Quot.sound",
"Syslog5424.C81_rfc5425_exactly": "propext, Classical.choice, Quot.sound",
"Syslog5424.C81_terminated_exactly": "propext, Classical.choice, Quot.sound",
"Syslog5424.C81_received": "propext, Classical.choice, Quot.sound",
"Syslog5424.C82_written": "propext, Classical.choice, Quot.sound",
"Syslog5424.C82_end_returns": "propext, Classical.choice, Quot.sound",
"Syslog5424.C82_send_returns": "propext, Classical.choice, Quot.sound",
"Syslog5424.C82_starved_violated": "propext, Quot.sound",
"Syslog5424.C83_received": "propext, Classical.choice, Quot.sound",
"Syslog5424.C83_frames": "propext, Classical.choice, Quot.sound",
"Syslog5424.C83_reads_on": "propext, Classical.choice, Quot.sound",
"Syslog5424.C84_delivered": "propext, Classical.choice, Quot.sound",
"Syslog5424.C84_lines": "propext, Classical.choice, Quot.sound",
"Syslog5424.C84_end": "propext, Classical.choice, Quot.sound",
"Syslog5424.C85_accepts": "propext, Classical.choice, Quot.sound",
"Syslog5424.C85_ends": "propext, Classical.choice, Quot.sound",
"Syslog5424.C85_stuck_violated": "propext, Quot.sound",
"Syslog5424.C86_builtin_parse": "propext, Quot.sound",
"Syslog5424.C86_builtin_run": "propext, Quot.sound",
"Syslog5424.C86_builtin_sender": "propext, Quot.sound",
"Syslog5424.C86_parse": "propext, Classical.choice, Quot.sound",
"Syslog5424.C86_fault_violated": "propext, Classical.choice, Quot.sound",
"Syslog5424.C86_reassembly": "propext, Classical.choice, Quot.sound",
"Syslog5424.C86_sender": "propext, Quot.sound",
"Syslog5424.C86_end_to_end": "propext, Classical.choice, Quot.sound",
"Syslog5424.C86_needs_progress": "propext, Classical.choice, Quot.sound",
"Syslog5424.C86_rfc5425": "propext, Classical.choice, Quot.sound",
"Syslog5424.C86_stuffing": "propext, Quot.sound",
"Syslog5424.C87_only_after_end": "propext, Quot.sound",
"Syslog5424.C87_no_end_partial": "propext, Quot.sound",
"Syslog5424.C87_quiet_end_partial": "propext, Classical.choice, Quot.sound",
"Syslog5424.C87_concurrent_end_violated": "propext, Quot.sound",
"Syslog5424.C88_backpressure": "propext, Classical.choice, Quot.sound",
"Syslog5424.C88_queues": "propext, Quot.sound",
"Syslog5424.C88_unread": "propext, Classical.choice, Quot.sound",
"Syslog5424.C88_sender_violated": "propext, Quot.sound",
"Syslog5424.C89_functional": "propext, Classical.choice, Quot.sound",
"Syslog5424.C89_decodes": "propext, Classical.choice, Quot.sound",
"Syslog5424.C89_crashes_exactly": "propext, Classical.choice, Quot.sound",
"Syslog5424.C89_same_reads": "propext, Classical.choice, Quot.sound",
"Syslog5424.C89_receive": "propext, Classical.choice, Quot.sound",
"Syslog5424.C89_without_brackets": "propext, Classical.choice, Quot.sound",
"Syslog5424.C89_segmentation": "propext, Classical.choice, Quot.sound",
"Syslog5424.C90_any_time": "propext, Classical.choice, Quot.sound",
"Syslog5424.C90_package": "propext, Classical.choice, Quot.sound",
"Syslog5424.C90_no_overlap": "propext, Classical.choice, Quot.sound",
"Syslog5424.C90_structured_data_partial": "propext, Classical.choice, Quot.sound",
"Syslog5424.C90_structured_data_text_partial": "propext, Classical.choice, Quot.sound",
"Syslog5424.C90_structured_data_violated": "propext, Classical.choice, Quot.sound",
"Syslog5424.C91_exactly_once": "propext, Quot.sound",
"Syslog5424.C91_reported": "propext, Quot.sound",
"Syslog5424.C91_same": "propext, Quot.sound",
"Syslog5424.C91_kept_violated": "propext, Classical.choice, Quot.sound",
"Syslog5424.C91_used_violated": "propext, Quot.sound",
"Syslog5424.C91_crash_violated": "propext, Quot.sound",
"Syslog5424.C92_linearizable": "propext, Quot.sound",
"Syslog5424.C92_order": "propext, Classical.choice, Quot.sound",
"Syslog5424.C92_result": "propext, Quot.sound",
"Syslog5424.C92_end": "propext, Classical.choice, Quot.sound",
"Syslog5424.C92_lock": "propext, Quot.sound",
"Syslog5424.C92_complete": "propext, Quot.sound",
"Syslog5424.C93_explained": "propext, Classical.choice, Quot.sound",
"Syslog5424.C93_exact": "propext, Classical.choice, Quot.sound",
"Syslog5424.C93_realised": "propext, Classical.choice, Quot.sound",
"Syslog5424.C93_order": "propext, Classical.choice, Quot.sound",
"Syslog5424.C93_doomed": "propext, Classical.choice, Quot.sound",
"Syslog5424.C93_doomed_crash": "propext, Classical.choice, Quot.sound",
"Syslog5424.C94_parse_printable": "propext, Classical.choice, Quot.sound",
"Syslog5424.C94_parse_one_line": "propext, Classical.choice, Quot.sound",
"Syslog5424.C94_shows_nil": "propext, Classical.choice, Quot.sound",
"Syslog5424.C94_shows_terminated": "propext, Classical.choice, Quot.sound",
"Syslog5424.C94_shows_rfc5425": "propext, Classical.choice, Quot.sound",
"Syslog5424.C94_unambiguous": "propext, Quot.sound",
"Syslog5424.C94_tells_apart": "propext, Classical.choice, Quot.sound",
"Syslog5424.C94_tokens_agree": "propext, Quot.sound",
"Syslog5424.C94_tokens_printable": "propext, Classical.choice, Quot.sound",
"Syslog5424.C94_name_error": "propext, Classical.choice, Quot.sound",
"Syslog5424.C94_header_error": "propext, Classical.choice, Quot.sound",
"Syslog5424.C94_space_error": "propext, Quot.sound",
"Syslog5424.C94_value_error": "propext, Quot.sound",
"Syslog5424.C94_raw_texts": "propext, Quot.sound",
"Syslog5424.C94_raw_violated": "propext, Classical.choice, Quot.sound",
"Syslog5424.C95_valid": "propext, Classical.choice, Quot.sound",
"Syslog5424.C95_invalid_unmarshal_partial": "propext, Classical.choice, Quot.sound",
"Syslog5424.C95_short_texts_violated": "propext, Classical.choice, Quot.sound",
"Syslog5424.C95_invalid_marshal": "propext, Classical.choice, Quot.sound",
"Syslog5424.C95_generic_errors_violated": "propext, Classical.choice, Quot.sound",
"Syslog5424.C95_parse_errors_violated": "propext, Quot.sound",
"Syslog5424.C95_custom": "propext, Classical.choice, Quot.sound",
"Syslog5424.C95_generic_valid_violated": "propext, Classical.choice, Quot.sound",
"Syslog5424.C95_generic_struct": "propext, Classical.choice, Quot.sound",
"Syslog5424.C96_element_partial": "propext, Classical.choice, Quot.sound",
"Syslog5424.C96_exact": "propext, Classical.choice, Quot.sound",
"Syslog5424.C96_message_partial": "propext, Classical.choice, Quot.sound",
"Syslog5424.C96_tag_violated": "propext, Classical.choice, Quot.sound",
"Syslog5424.C96_key_violated": "propext, Classical.choice, Quot.sound",
"Syslog5424.C96_identifier_violated": "propext, Classical.choice, Quot.sound",
"Syslog5424.C96_twice_violated": "propext, Classical.choice, Quot.sound",
"Syslog5424.C97_timestamp": "propext, Classical.choice, Quot.sound",
"Syslog5424.C97_rfc": "propext, Quot.sound",
"Syslog5424.C97_received": "propext, Classical.choice, Quot.sound",
"Syslog5424.C97_lenient_violated": "propext, Classical.choice, Quot.sound",
"Syslog5424.C98_received_partial": "propext, Classical.choice, Quot.sound",
"Syslog5424.C98_lines_received_partial": "propext, Classical.choice, Quot.sound",
"Syslog5424.C98_complete_partial": "propext, Classical.choice, Quot.sound",
"Syslog5424.C98_lines_complete_partial": "propext, Classical.choice, Quot.sound",
"Syslog5424.C98_all_connections_partial": "propext, Classical.choice, Quot.sound",
"Syslog5424.C98_lines_all_connections_partial": "propext, Classical.choice, Quot.sound",
"Syslog5424.C98_race_violated": "propext, Quot.sound",
"Syslog5424.C99_registered": "propext, Quot.sound",
"Syslog5424.C99_package_partial": "propext, Classical.choice, Quot.sound",
"Syslog5424.C99_itself": "propext, Classical.choice, Quot.sound",
"Syslog5424.C99_content": "propext, Classical.choice, Quot.sound",
"Syslog5424.C99_sent_partial": "propext, Classical.choice, Quot.sound",
"Syslog5424.C99_short_violated": "propext, Classical.choice, Quot.sound",
"Syslog5424.C100_delivered_partial": "propext, Classical.choice, Quot.sound",
"Syslog5424.C100_lines_partial": "propext, Classical.choice, Quot.sound",
"Syslog5424.C100_clean": "propext, Quot.sound",
"Syslog5424.C100_midframe_violated": "propext, Quot.sound",
"Syslog5424.C100_connection_partial": "propext, Classical.choice, Quot.sound",
"Syslog5424.C100_connection_lines_partial": "propext, Classical.choice, Quot.sound",
"Syslog5424.C101_logged_partial": "propext, Classical.choice, Quot.sound",
"Syslog5424.C101_lines_partial": "propext, Classical.choice, Quot.sound",
"Syslog5424.C102_shared": "propext, Quot.sound",
"Syslog5424.C102_atomic": "propext, Quot.sound",
"Syslog5424.C102_complete": "propext, Quot.sound",
"Syslog5424.C102_connection": "propext, Classical.choice, Quot.sound",
"Syslog5424.C102_all": "propext, Quot.sound",
"Syslog5424.C102_ended": "propext, Quot.sound",
"Syslog5424.C102_one_worker": "propext, Classical.choice, Quot.sound",
"Syslog5424.C102_returned": "propext, Classical.choice, Quot.sound",
"Syslog5424.C102_delivered": "propext, Classical.choice, Quot.sound",
"Syslog5424.C102_lines": "propext, Classical.choice, Quot.sound",
"Syslog5424.C103_shared_partial": "propext, Classical.choice, Quot.sound",
"Syslog5424.C103_no_race_partial": "propext, Classical.choice, Quot.sound",
"Syslog5424.C103_first_partial": "propext, Classical.choice, Quot.sound",
"Syslog5424.C103_channel": "propext, Classical.choice, Quot.sound",
"Syslog5424.C103_sub_partial": "propext, Classical.choice, Quot.sound",
"Syslog5424.C103_no_panic": "propext, Classical.choice, Quot.sound",
"Syslog5424.C103_first_violated": "propext, Quot.sound",
"Syslog5424.C103_testMode_violated": "propext, Quot.sound",
"Syslog5424.C104_send_returns": "propext, Classical.choice, Quot.sound",
"Syslog5424.C104_end_returns": "propext, Classical.choice, Quot.sound",
"Syslog5424.C104_delivered_partial": "propext, Classical.choice, Quot.sound",
"Syslog5424.C104_lines_partial": "propext, Classical.choice, Quot.sound",
"Syslog5424.C104_logged_partial": "propext, Classical.choice, Quot.sound",
"Syslog5424.C104_logged_lines_partial": "propext, Classical.choice, Quot.sound",
"Syslog5424.C105_logged_partial": "propext, Classical.choice, Quot.sound",
"Syslog5424.C105_lines_partial": "propext, Classical.choice, Quot.sound",
"Syslog5424.C106_hop_partial": "propext, Classical.choice, Quot.sound",
"Syslog5424.C106_chain_partial": "propext, Classical.choice, Quot.sound",
"Syslog5424.C106_unregistered": "propext, Classical.choice, Quot.sound",
"Syslog5424.C106_package_partial": "propext, Classical.choice, Quot.sound",
"Syslog5424.C106_in_order_partial": "propext, Classical.choice, Quot.sound",
"Syslog5424.C106_complete_partial": "propext, Classical.choice, Quot.sound",
"Syslog5424.C106_eventually_partial": "propext, Classical.choice, Quot.sound",
"Syslog5424.C106_timequality_violated": "propext, Classical.choice, Quot.sound",
"Syslog5424.C106_same_bytes_iff": "propext, Classical.choice, Quot.sound",
"Syslog5424.C106_reproduces_iff": "propext, Classical.choice, Quot.sound",
"Syslog5424.C107_intact_iff": "propext, Classical.choice, Quot.sound",
"Syslog5424.C107_forwarded_partial": "propext, Classical.choice, Quot.sound",
"Syslog5424.C107_size": "propext, Classical.choice, Quot.sound",
"Syslog5424.C107_relay_partial": "propext, Classical.choice, Quot.sound",
"Syslog5424.C107_priority_violated": "propext, Quot.sound",
"Syslog5424.C107_offset_violated": "propext, Quot.sound",
"Syslog5424.C107_text_violated": "propext, Quot.sound",
"Syslog5424.C107_line_violated": "propext, Quot.sound",
"Syslog5424.C108_same_partial": "propext, Classical.choice, Quot.sound",
"Syslog5424.C108_order_partial": "propext, Classical.choice, Quot.sound",
"Syslog5424.C108_conversely": "propext",
"Syslog5424.C108_both": "propext, Quot.sound",
"Syslog5424.C108_crashes": "propext, Quot.sound",
"Syslog5424.C108_neither_violated": "propext",
"Syslog5424.C108_over_violated": "propext",
"Syslog5424.C109_counts": "propext, Quot.sound",
"Syslog5424.C109_same_partial": "propext, Classical.choice, Quot.sound",
"Syslog5424.C109_exactly_once_partial": "propext, Classical.choice, Quot.sound",
"Syslog5424.C109_scrambled_violated": "propext, Quot.sound",
"Syslog5424.C109_spin_violated": "propext, Classical.choice, Quot.sound",
"Syslog5424.C109_lost_violated": "propext, Quot.sound",
"Syslog5424.C110_delivered_partial": "propext, Classical.choice, Quot.sound",
"Syslog5424.C111_no_effect_partial": "propext, Quot.sound",
"Syslog5424.C111_written_partial": "propext, Classical.choice, Quot.sound",
"Syslog5424.C111_encode_violated": "propext, Quot.sound",
"Syslog5424.C112_ticks": "propext, Quot.sound",
"Syslog5424.C112_one_flush": "propext, Classical.choice, Quot.sound",
"Syslog5424.C112_time": "propext, Classical.choice, Quot.sound",
"Syslog5424.C112_calls": "propext, Classical.choice, Quot.sound",
"Syslog5424.C113_delivered_partial": "propext, Classical.choice, Quot.sound",
"Syslog5424.C113_logged_partial": "propext, Classical.choice, Quot.sound",
"Syslog5424.C114_delivered_partial": "propext, Classical.choice, Quot.sound",
"Syslog5424.C114_lines_partial": "propext, Classical.choice, Quot.sound",
"Syslog5424.C114_logged_partial": "propext, Classical.choice, Quot.sound",
"Syslog5424.C114_logged_lines_partial": "propext, Classical.choice, Quot.sound",
"Syslog5424.C114_gram_partial": "propext, Classical.choice, Quot.sound",
"Syslog5424.C114_gram_logged_partial": "propext, Classical.choice, Quot.sound",
"Syslog5424.C114_gram_mixed_partial": "propext, Classical.choice, Quot.sound",
"Syslog5424.C115_delivered_partial": "propext, Classical.choice, Quot.sound",
"Syslog5424.C115_only_partial": "propext, Classical.choice, Quot.sound",
"Syslog5424.C115_origin_partial": "propext, Classical.choice, Quot.sound",
"Syslog5424.C115_logged_partial": "propext, Classical.choice, Quot.sound",
"Syslog5424.C115_logged_origin_partial": "propext, Classical.choice, Quot.sound",
"Syslog5424.C116_resync_partial": "propext, Classical.choice, Quot.sound",
"Syslog5424.C116_stuck_violated": "propext, Classical.choice, Quot.sound",
"Syslog5424.C116_eventually_partial": "propext, Classical.choice, Quot.sound",
"Syslog5424.C116_first_exactly": "propext, Classical.choice, Quot.sound",
"Syslog5424.C116_words_eventually": "propext, Classical.choice, Quot.sound",
"Syslog5424.C117_two_per_cut": "propext, Classical.choice, Quot.sound",
"Syslog5424.C117_logged": "propext, Classical.choice, Quot.sound",
"Syslog5424.C118_received_partial": "propext, Classical.choice, Quot.sound",
"Syslog5424.C118_complete_partial": "propext, Classical.choice, Quot.sound",
"Syslog5424.C118_without_sub": "propext, Classical.choice, Quot.sound",
"Syslog5424.C118_sub_ready": "propext, Classical.choice, Quot.sound",
"Syslog5424.C118_sub_violated": "propext, Classical.choice, Quot.sound",
"Syslog5424.C118_eventually_partial": "propext, Classical.choice, Quot.sound",
"Syslog5424.C118_gram_partial": "propext, Classical.choice, Quot.sound",
"Syslog5424.C118_server_partial": "propext, Classical.choice, Quot.sound",
"Syslog5424.C118_origin_partial": "propext, Classical.choice, Quot.sound"
}