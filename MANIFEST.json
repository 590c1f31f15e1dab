{
 "claims": [
  {
   "property": "C01",
   "status": "proved",
   "theorems": [
    "Syslog5424.C01_marshal_format",
    "Syslog5424.C01_round_trip"
   ],
   "note": "Full."
  },
  {
   "property": "C02",
   "status": "proved",
   "theorems": [
    "Syslog5424.C02_decoder_grammar",
    "Syslog5424.C02_decoder_error"
   ],
   "note": "Full."
  },
  {
   "property": "C03",
   "status": "proved",
   "theorems": [
    "Syslog5424.C03_ranges",
    "Syslog5424.C03_split",
    "Syslog5424.C03_combine"
   ],
   "note": "Full."
  },
  {
   "property": "C04",
   "status": "partial",
   "theorems": [
    "Syslog5424.C04_set_accepts",
    "Syslog5424.C04_set_error",
    "Syslog5424.C04_string_set",
    "Syslog5424.C04_string_named",
    "Syslog5424.C04_string_unnamed_violated",
    "Syslog5424.C04_string_safe_partial",
    "Syslog5424.C04_string_rfc_partial",
    "Syslog5424.C04_string_violated"
   ],
   "note": "What String prints is characterised for every priority. Violated: the wire decoder accepts facilities above 23, on which String panics (C04_string_violated); for the facilities 12 to 15 String prints a name that Set refuses (C04_string_unnamed_violated). The rest is proved."
  },
  {
   "property": "C05",
   "status": "proved",
   "theorems": [
    "Syslog5424.C05_create_valid",
    "Syslog5424.C05_setter_valid",
    "Syslog5424.C05_valid_kept",
    "Syslog5424.C05_create_kept",
    "Syslog5424.C05_idempotent",
    "Syslog5424.C05_pointwise",
    "Syslog5424.C05_create_pointwise"
   ],
   "note": ""
  },
  {
   "property": "C06",
   "status": "partial",
   "theorems": [
    "Syslog5424.C06_exact_iff",
    "Syslog5424.C06_setter_sequences",
    "Syslog5424.C06_with_localhost_partial",
    "Syslog5424.C06_localhost_violated",
    "Syslog5424.C06_last_wins",
    "Syslog5424.C06_sd_added"
   ],
   "note": "Full for all setters except LocalHost, which stores the unsanitised OS host name (C06_localhost_violated). C06_last_wins and C06_sd_added say what every field is after any sequence of calls. C06_exact_iff: exactly when."
  },
  {
   "property": "C07",
   "status": "proved",
   "theorems": [
    "Syslog5424.C07_text_trimmed",
    "Syslog5424.C07_same_text",
    "Syslog5424.C07_idempotent",
    "Syslog5424.C07_prefix"
   ],
   "note": ""
  },
  {
   "property": "C08",
   "status": "proved",
   "theorems": [
    "Syslog5424.C08_grammar",
    "Syslog5424.C08_created",
    "Syslog5424.C08_bad_key"
   ],
   "note": "Full, for every message that meets the hypotheses of the property."
  },
  {
   "property": "C09",
   "status": "partial",
   "theorems": [
    "Syslog5424.C09_nil_transport_partial",
    "Syslog5424.C09_nil_accepts",
    "Syslog5424.C09_never_hangs",
    "Syslog5424.C09_terminated_panics_exactly_partial",
    "Syslog5424.C09_rfc5425_panics_exactly_partial",
    "Syslog5424.C09_no_text_violated"
   ],
   "note": "Termination holds for every input. The code violates the no-panic part (C09_no_text_violated: messages without text with the LF/NUL transports, truncated RFC 5425 frames at end of file); the exact panic conditions are proved."
  },
  {
   "property": "C10",
   "status": "partial",
   "theorems": [
    "Syslog5424.C10_accessors",
    "Syslog5424.C10_structuredData_partial",
    "Syslog5424.C10_short_element_violated",
    "Syslog5424.C10_zero_violated"
   ],
   "note": "Field accessors: full. StructuredData/Writable panic on a short last element in an exactly sized buffer when timequality is imported (C10_short_element_violated); proved otherwise. The message that comes with an error, and with no error when there is no frame, is the zero one: every accessor but String and Text panics on it (C10_zero_violated)."
  },
  {
   "property": "C11",
   "status": "partial",
   "theorems": [
    "Syslog5424.C11_round_trip_partial",
    "Syslog5424.C11_no_params_violated"
   ],
   "note": "Proved for elements with at least one parameter and, next to structured data, texts in which every ']' comes after a backslash and is not the last byte (exactly those that survive, C12); violated otherwise (C11_no_params_violated, C12_text_violated)."
  },
  {
   "property": "C12",
   "status": "partial",
   "theorems": [
    "Syslog5424.C12_text_survives_iff_partial",
    "Syslog5424.C12_text_violated"
   ],
   "note": "The code violates the property; the exact set of texts that survive is proved."
  },
  {
   "property": "C13",
   "status": "partial",
   "theorems": [
    "Syslog5424.C13_nil_lossless",
    "Syslog5424.C13_terminated_lossless",
    "Syslog5424.C13_rfc5425_lossless_partial",
    "Syslog5424.C13_truncated_violated",
    "Syslog5424.C13_separator_violated",
    "Syslog5424.C13_dash_separator"
   ],
   "note": "Violated for truncated frames and for the byte between structured data and text (C13_truncated_violated, C13_separator_violated); proved otherwise."
  },
  {
   "property": "C14",
   "status": "partial",
   "theorems": [
    "Syslog5424.C14_identity_partial",
    "Syslog5424.C14_identity_unregistered_partial",
    "Syslog5424.C14_identity_timequality_partial",
    "Syslog5424.C14_timequality_violated",
    "Syslog5424.C14_timequality_iff"
   ],
   "note": "Proved for reproducing decoders, for an empty registry and for timequality with positive accuracy; violated by timeQuality elements with zero values (C14_timequality_violated). C14_timequality_iff: with timequality imported, exactly for messages whose timeQuality elements are in their shortest form."
  },
  {
   "property": "C15",
   "status": "partial",
   "theorems": [
    "Syslog5424.C15_exact_iff",
    "Syslog5424.C15_format",
    "Syslog5424.C15_round_trip_partial",
    "Syslog5424.C15_short_frame_violated"
   ],
   "note": "Violated for frames shorter than 20 bytes (C15_short_frame_violated); proved for all others. C15_exact_iff says exactly which values are reproduced."
  },
  {
   "property": "C16",
   "status": "proved",
   "theorems": [
    "Syslog5424.C16_round_trip",
    "Syslog5424.C16_cut",
    "Syslog5424.C16_format"
   ],
   "note": ""
  },
  {
   "property": "C17",
   "status": "proved",
   "theorems": [
    "Syslog5424.C17_incomplete_waits"
   ],
   "note": ""
  },
  {
   "property": "C18",
   "status": "partial",
   "theorems": [
    "Syslog5424.C18_frame_in_buffer_partial",
    "Syslog5424.C18_panics_exactly_partial",
    "Syslog5424.C18_negative_header_violated",
    "Syslog5424.C18_lenient_header"
   ],
   "note": "Violated by negative or overflowing length headers (C18_negative_header_violated); the exact panic condition is proved."
  },
  {
   "property": "C19",
   "status": "partial",
   "theorems": [
    "Syslog5424.C19_rfc5425_one_frame",
    "Syslog5424.C19_rfc5425_any_text",
    "Syslog5424.C19_terminated_partial",
    "Syslog5424.C19_terminated_received_partial",
    "Syslog5424.C19_terminator_violated",
    "Syslog5424.C19_forged_violated"
   ],
   "note": "Proved for RFC 5425. Violated for LF and NUL framing when the text contains the terminator (C19_terminator_violated); proved otherwise."
  },
  {
   "property": "C20",
   "status": "proved",
   "theorems": [
    "Syslog5424.C20_encoded_form",
    "Syslog5424.C20_marshal_map",
    "Syslog5424.C20_tokenizer",
    "Syslog5424.C20_unescape",
    "Syslog5424.C20_tokenizer_sound",
    "Syslog5424.C20_injective",
    "Syslog5424.C20_empty_key_raw"
   ],
   "note": ""
  },
  {
   "property": "C21",
   "status": "proved",
   "theorems": [
    "Syslog5424.C21_order_independent",
    "Syslog5424.C21_increasing",
    "Syslog5424.C21_nil_map",
    "Syslog5424.C21_exact"
   ],
   "note": ""
  },
  {
   "property": "C22",
   "status": "partial",
   "theorems": [
    "Syslog5424.C22_encode_decode_partial",
    "Syslog5424.C22_decode_encode",
    "Syslog5424.C22_decode_encode_exact",
    "Syslog5424.C22_decodes_iff",
    "Syslog5424.C22_total",
    "Syslog5424.C22_no_params_violated"
   ],
   "note": "C22_decodes_iff is the exact condition. Elements without parameters are never decoded (C22_no_params_violated); everything else proved."
  },
  {
   "property": "C23",
   "status": "partial",
   "theorems": [
    "Syslog5424.C23_error_iff",
    "Syslog5424.C23_panics_exactly_partial",
    "Syslog5424.C23_zero_accuracy_violated",
    "Syslog5424.C23_remote_violated",
    "Syslog5424.C23_decoder_valid",
    "Syslog5424.C23_round_trip_partial",
    "Syslog5424.C23_decoder_reads"
   ],
   "note": "Accuracy <= 0 panics (C23_zero_accuracy_violated); everything else proved."
  },
  {
   "property": "C24",
   "status": "partial",
   "theorems": [
    "Syslog5424.C24_never_panics_partial",
    "Syslog5424.C24_panics_exactly_partial",
    "Syslog5424.C24_short_element_violated",
    "Syslog5424.C24_generic_partial"
   ],
   "note": "Short elements at the end of their buffer panic when timequality is registered (C24_short_element_violated); exact condition proved."
  },
  {
   "property": "C25",
   "status": "proved",
   "theorems": [
    "Syslog5424.C25_empty",
    "Syslog5424.C25_concat",
    "Syslog5424.C25_ok_iff",
    "Syslog5424.C25_error",
    "Syslog5424.C25_message_error",
    "Syslog5424.C25_message_ok",
    "Syslog5424.C25_message_string",
    "Syslog5424.C25_list_string",
    "Syslog5424.C25_not_caught"
   ],
   "note": ""
  },
  {
   "property": "C26",
   "status": "proved",
   "theorems": [
    "Syslog5424.C26_first_wins",
    "Syslog5424.C26_register_adds",
    "Syslog5424.C26_no_duplicates",
    "Syslog5424.C26_order_independent",
    "Syslog5424.C26_unknown"
   ],
   "note": ""
  },
  {
   "property": "C27",
   "status": "partial",
   "theorems": [
    "Syslog5424.C27_struct_partial",
    "Syslog5424.C27_errors_partial",
    "Syslog5424.C27_root_error",
    "Syslog5424.C27_root_violated",
    "Syslog5424.C27_mandatory_violated",
    "Syslog5424.C27_panics_violated",
    "Syslog5424.C27_array_error_violated",
    "Syslog5424.C27_exact",
    "Syslog5424.C27_exact_unique"
   ],
   "note": "C27_exact gives the result for every struct value: which parameters, which error, or a crash, against an item by item specification. The code violates the no-panic part: a missing mandatory field, an interface field, an unexported field (C27_mandatory_violated, C27_panics_violated); arrays are never encoded (C27_array_error_violated)."
  },
  {
   "property": "C28",
   "status": "partial",
   "theorems": [
    "Syslog5424.C28_original_partial",
    "Syslog5424.C28_extended_once_partial",
    "Syslog5424.C28_no_room_partial",
    "Syslog5424.C28_sibling_violated"
   ],
   "note": "Violated: two derivations from a message whose array has room (e.g. three elements added one by one) overwrite each other (C28_sibling_violated). Proved: originals never change, and everything is a value when no non-empty list is extended twice, or when append leaves no room."
  },
  {
   "property": "C29",
   "status": "proved",
   "theorems": [
    "Syslog5424.C29_new",
    "Syslog5424.C29_filter"
   ],
   "note": "Full for sequential histories; concurrent first calls are C57."
  },
  {
   "property": "C30",
   "status": "proved",
   "theorems": [
    "Syslog5424.C30_priority"
   ],
   "note": "Full."
  },
  {
   "property": "C31",
   "status": "partial",
   "theorems": [
    "Syslog5424.C31_derive_partial",
    "Syslog5424.C31_reach",
    "Syslog5424.C31_devnull",
    "Syslog5424.C31_msgid_violated"
   ],
   "note": "Violated after Msgid: AppName and Msgid of a channel given by Msgid are /dev/null (C31_msgid_violated); proved for the others."
  },
  {
   "property": "C32",
   "status": "partial",
   "theorems": [
    "Syslog5424.C32_exact_iff",
    "Syslog5424.C32_valid_partial",
    "Syslog5424.C32_without_sub",
    "Syslog5424.C32_sub_violated"
   ],
   "note": "Violated by SubSyslog, which does not sanitise the name (C32_sub_violated); proved when the path is valid, in particular without SubSyslog. C32_exact_iff: exactly when."
  },
  {
   "property": "C33",
   "status": "proved",
   "theorems": [
    "Syslog5424.C33_write",
    "Syslog5424.C33_log",
    "Syslog5424.C33_logger"
   ],
   "note": "Full."
  },
  {
   "property": "C34",
   "status": "proved",
   "theorems": [
    "Syslog5424.C34_exactly_once",
    "Syslog5424.C34_prefix",
    "Syslog5424.C34_monotone"
   ],
   "note": "Full."
  },
  {
   "property": "C35",
   "status": "proved",
   "theorems": [
    "Syslog5424.C35_end_flushes"
   ],
   "note": "Full."
  },
  {
   "property": "C36",
   "status": "partial",
   "theorems": [
    "Syslog5424.C36_causes_partial",
    "Syslog5424.C36_no_failure_partial",
    "Syslog5424.C36_end_violated"
   ],
   "note": "Violated: End without a connection crashes (C36_end_violated). Proved: the complete list of crash causes, and no crash when nothing fails and something was sent."
  },
  {
   "property": "C37",
   "status": "partial",
   "theorems": [
    "Syslog5424.C37_boundary_partial",
    "Syslog5424.C37_goes_on",
    "Syslog5424.C37_first_partial",
    "Syslog5424.C37_datagram_partial",
    "Syslog5424.C37_reconnect_violated"
   ],
   "note": "Violated after a partial write followed by an error (C37_reconnect_violated). Proved for the first connection, for every connection that begins at a frame boundary (C37_boundary_partial), and for all connections when failing writes accept nothing (datagrams); C37_goes_on says in general what a connection carries."
  },
  {
   "property": "C38",
   "status": "partial",
   "theorems": [
    "Syslog5424.C38_write_errors_violated",
    "Syslog5424.C38_connect_errors_violated",
    "Syslog5424.C38_lock_bound_partial",
    "Syslog5424.C38_lock_progress_partial",
    "Syslog5424.C38_end_returns_partial"
   ],
   "note": "Violated when nobody reads the error channel (C38_write_errors_violated, C38_connect_errors_violated). Proved: bounded lock holding, progress, End can return when errors are read and nothing fails any more."
  },
  {
   "property": "C39",
   "status": "partial",
   "theorems": [
    "Syslog5424.C39_flush",
    "Syslog5424.C39_progress",
    "Syslog5424.C39_after_end",
    "Syslog5424.C39_lost_violated"
   ],
   "note": "Flush after a tick, progress and silence after End: full. Violated for a Send concurrent with End (C39_lost_violated)."
  },
  {
   "property": "C40",
   "status": "partial",
   "theorems": [
    "Syslog5424.C40_returned",
    "Syslog5424.C40_crashes_exactly",
    "Syslog5424.C40_reassembly_partial",
    "Syslog5424.C40_all_delivered_partial",
    "Syslog5424.C40_short_frames_partial",
    "Syslog5424.C40_short_frame_violated"
   ],
   "note": "Violated for frames shorter than 20 bytes, which are not delivered (C40_short_frame_violated). Proved for frames of at least 20 bytes: exactly the frames that have arrived entirely have been delivered, in order, once, with their payloads; and what happens with shorter frames (C40_short_frames_partial). C40_returned: the same wherever the stream is cut, also by an early end of file, as long as there is no crash; C40_crashes_exactly: there is a crash iff the end of file comes together with bytes that end inside a payload right behind the structured data."
  },
  {
   "property": "C41",
   "status": "partial",
   "theorems": [
    "Syslog5424.C41_segmentation_violated",
    "Syslog5424.C41_reassembly_partial",
    "Syslog5424.C41_cut_after_dash_violated",
    "Syslog5424.C41_crashes_exactly",
    "Syslog5424.C41_no_text_violated",
    "Syslog5424.C41_structured_data_violated"
   ],
   "note": "Violated: a read that ends just after the '-' of the structured data crashes (C41_cut_after_dash_violated); messages without text (C41_no_text_violated) and with structured data (C41_structured_data_violated) are not separated. Proved for lines without structured data and with a text, for all segmentations that do not cut after that dash; C41_crashes_exactly shows that such a cut is the only way to crash on these streams, and always does. C41_segmentation_violated: the same bytes give one message in one read and two messages in two reads."
  },
  {
   "property": "C42",
   "status": "partial",
   "theorems": [
    "Syslog5424.C42_room_partial",
    "Syslog5424.C42_progress_partial",
    "Syslog5424.C42_stall_violated",
    "Syslog5424.C42_stuck_exactly",
    "Syslog5424.C42_room_lines_partial"
   ],
   "note": "Violated: an unfinished frame larger than the free room makes Read get an empty slice and the loop spins (C42_stall_violated). Proved: room is left after each pass while less than the buffer is pending, and progress. C42_stuck_exactly: for any transport and any bytes, a connection is stuck iff its buffer is full, and then at least 500 bytes wait; C42_room_lines_partial is the LF/NUL counterpart of C42_room_partial."
  },
  {
   "property": "C43",
   "status": "proved",
   "theorems": [
    "Syslog5424.C43_immutable"
   ],
   "note": "Full: no later pass of the loop changes the bytes of a delivered message."
  },
  {
   "property": "C44",
   "status": "proved",
   "theorems": [
    "Syslog5424.C44_order",
    "Syslog5424.C44_nothing_else",
    "Syslog5424.C44_progress",
    "Syslog5424.C44_queue_bound",
    "Syslog5424.C44_realised"
   ],
   "note": "Full, for all interleavings and any number of connections. The composition with the tokenizer is C53_receive_partial."
  },
  {
   "property": "C45",
   "status": "partial",
   "theorems": [
    "Syslog5424.C45_datagram_violated",
    "Syslog5424.C45_datagram_double_close_violated",
    "Syslog5424.C45_datagram_early_partial",
    "Syslog5424.C45_end_violated",
    "Syslog5424.C45_doomed_violated",
    "Syslog5424.C45_accept_blocks_violated",
    "Syslog5424.C45_one_accept_partial",
    "Syslog5424.C45_causes_partial"
   ],
   "note": "Violated: a connection that decodes a message after End crashes the program (C45_end_violated, C45_doomed_violated); End does not stop a blocked Accept (C45_accept_blocks_violated). Proved: at most one more Accept returns after End, and the complete list of crash causes. On a datagram listener (Verif/Model/Datagram.lean) End has no effect once the second Accept is entered (C45_datagram_violated)."
  },
  {
   "property": "C46",
   "status": "partial",
   "theorems": [
    "Syslog5424.C46_datagram_close_violated",
    "Syslog5424.C46_accept_error_violated",
    "Syslog5424.C46_reported_partial"
   ],
   "note": "Violated: a failed Accept starts a goroutine on a nil connection, which crashes (C46_accept_error_violated). Proved: every error is put on the error channel exactly once."
  },
  {
   "property": "C47",
   "status": "partial",
   "theorems": [
    "Syslog5424.C47_exact",
    "Syslog5424.C47_exact_iff",
    "Syslog5424.C47_in_order_partial",
    "Syslog5424.C47_progress",
    "Syslog5424.C47_truncated_violated"
   ],
   "note": "Datagrams longer than the 65536-byte read buffer are truncated (C47_truncated_violated); without them the stream is the concatenation in order, for every read size. C47_exact, C47_exact_iff: exactly when."
  },
  {
   "property": "C48",
   "status": "proved",
   "theorems": [
    "Syslog5424.C48_networks",
    "Syslog5424.C48_unknown",
    "Syslog5424.C48_options",
    "Syslog5424.C48_destination",
    "Syslog5424.C48_default"
   ],
   "note": ""
  },
  {
   "property": "C49",
   "status": "proved",
   "theorems": [
    "Syslog5424.C49_guess",
    "Syslog5424.C49_tcp"
   ],
   "note": ""
  },
  {
   "property": "C50",
   "status": "proved",
   "theorems": [
    "Syslog5424.C50_search",
    "Syslog5424.C50_address",
    "Syslog5424.C50_remembered"
   ],
   "note": ""
  },
  {
   "property": "C51",
   "status": "partial",
   "theorems": [
    "Syslog5424.C51_panics_iff",
    "Syslog5424.C51_connect_partial",
    "Syslog5424.C51_no_address_violated"
   ],
   "note": "Violated: no address of the wanted family gives a panic, not an error (C51_no_address_violated). Proved otherwise. C51_panics_iff: exactly which values make it panic."
  },
  {
   "property": "C52",
   "status": "proved",
   "theorems": [
    "Syslog5424.C52_format_parse",
    "Syslog5424.C52_timestamp_of_frame",
    "Syslog5424.C52_round_trip",
    "Syslog5424.C52_seconds_offset",
    "Syslog5424.C52_other_years"
   ],
   "note": "Full. C52_other_years: outside 0..9999 the time is lost."
  },
  {
   "property": "C53",
   "status": "partial",
   "theorems": [
    "Syslog5424.C53_cut_violated",
    "Syslog5424.C53_in_order_partial",
    "Syslog5424.C53_complete_partial",
    "Syslog5424.C53_end_partial",
    "Syslog5424.C53_reconnect_partial",
    "Syslog5424.C53_all_connections_partial",
    "Syslog5424.C53_receive_partial",
    "Syslog5424.C53_writev_partial"
   ],
   "note": "Proved for the composition of Sender and Receiver over RFC 5425: on the first connection whatever happens (C53_in_order_partial, C53_complete_partial, C53_end_partial; C53_writev_partial when the connection takes several frames at once), and over any number of reconnections that happen between two frames (C53_reconnect_partial, C53_all_connections_partial); for messages that both halves handle: valid header fields and time, structured data elements with a parameter, no ']' in a text next to structured data (C12_text_violated), less than 2^62 bytes; the receiver must not have crashed (C45, C46). Missing: a reconnection after a write that was cut inside a frame, where the claim is false: C53_cut_violated, this message and all behind it are lost silently."
  },
  {
   "property": "C54",
   "status": "partial",
   "theorems": [
    "Syslog5424.C54_reads_partial",
    "Syslog5424.C54_recent",
    "Syslog5424.C54_unreadable",
    "Syslog5424.C54_leap_violated",
    "Syslog5424.C54_ahead_violated",
    "Syslog5424.C54_exact"
   ],
   "note": "Characterises time.Parse(time.Stamp): parseStamp_iff against the grammar StampReads. C54_recent: the exact date for events of the last 31 days. Fails: February 29 in a common year becomes March 1 (C54_leap_violated), a stamp of January 1 read on December 31 is a year off (C54_ahead_violated). The current year is read in the local zone, the stamp in UTC. C54_exact: exactly what is reported."
  },
  {
   "property": "C55",
   "status": "partial",
   "theorems": [
    "Syslog5424.C55_result_partial",
    "Syslog5424.C55_replaced_partial",
    "Syslog5424.C55_reported_partial",
    "Syslog5424.C55_destroys_violated",
    "Syslog5424.C55_endless_violated"
   ],
   "note": "Violated: whatever is at the path (a regular file, the socket of a live server) is removed (C55_destroys_violated), and an address that stays in use is retried for ever (C55_endless_violated). Proved: what is returned, and when."
  },
  {
   "property": "C56",
   "status": "partial",
   "theorems": [
    "Syslog5424.C56_once_partial",
    "Syslog5424.C56_blocks_partial",
    "Syslog5424.C56_uninterrupted",
    "Syslog5424.C56_race_violated",
    "Syslog5424.C56_double_close_violated"
   ],
   "note": "Proved for every history in which Accept is called by one goroutine at a time, as the receiver does. Fails for concurrent calls (C56_race_violated: the flag is not protected) and for a second Close (C56_double_close_violated: panic)."
  },
  {
   "property": "C57",
   "status": "partial",
   "theorems": [
    "Syslog5424.C57_safe_partial",
    "Syslog5424.C57_after_first_partial",
    "Syslog5424.C57_race_violated"
   ],
   "note": "Violated when the first calls are concurrent (C57_race_violated); proved: never a wrong or crashing result but /dev/null, and all results right once one call has returned."
  },
  {
   "property": "C58",
   "status": "partial",
   "theorems": [
    "Syslog5424.C58_leak_violated",
    "Syslog5424.C58_closed_partial"
   ],
   "note": "Violated after a failed write (C58_leak_violated); proved without such failures."
  },
  {
   "property": "C59",
   "status": "proved",
   "theorems": [
    "Syslog5424.C59_reported",
    "Syslog5424.C59_after_end"
   ],
   "note": "Full."
  },
  {
   "property": "C60",
   "status": "partial",
   "theorems": [
    "Syslog5424.C60_eof_ends",
    "Syslog5424.C60_read_error_violated"
   ],
   "note": "End of file always ends the loop; violated for read errors (C60_read_error_violated): the loop reports them and reads again for ever."
  },
  {
   "property": "C61",
   "status": "partial",
   "theorems": [
    "Syslog5424.C61_bad_payload_partial",
    "Syslog5424.C61_poisoned_violated",
    "Syslog5424.C61_lines_silent_violated",
    "Syslog5424.C61_merged_violated"
   ],
   "note": "Violated: bytes that start with a space are neither delivered nor reported, nor is anything after them (C61_poisoned_violated). Proved for RFC 5425: a badly formed payload costs one error and the messages before and after are delivered. With the LF and NUL transports the claim is false: C61_lines_silent_violated (no error is ever delivered, whatever arrives), C61_merged_violated (garbage swallows the message behind it)."
  },
  {
   "property": "C62",
   "status": "partial",
   "theorems": [
    "Syslog5424.C62_terminates",
    "Syslog5424.C62_panics_only_partial",
    "Syslog5424.C62_remote_crash_violated"
   ],
   "note": "Violated: a peer can crash the receiver (C62_remote_crash_violated). Proved: every pass terminates, and the complete list of what makes it panic. For RFC 5425, C80_crashes_exactly characterises the crashing streams completely."
  },
  {
   "property": "C63",
   "status": "partial",
   "theorems": [
    "Syslog5424.C63_unread_errors_violated",
    "Syslog5424.C63_room_partial",
    "Syslog5424.C63_one_connection_violated"
   ],
   "note": "Violated: the error channel holds 10 errors, the goroutine that reports the next one stops for ever (C63_unread_errors_violated); one failing connection suffices (C63_one_connection_violated). Proved: with fewer unread errors nobody is blocked."
  },
  {
   "property": "C64",
   "status": "proved",
   "theorems": [
    "Syslog5424.C64_epoch",
    "Syslog5424.C64_numbers"
   ],
   "note": "The calendar computation of the standard library (absDate) is modelled and proved against the Gregorian calendar; the zone is an arbitrary function of the instant bounded by two days."
  },
  {
   "property": "C65",
   "status": "partial",
   "theorems": [
    "Syslog5424.C65_delta_partial",
    "Syslog5424.C65_overflow_violated",
    "Syslog5424.C65_exact_iff"
   ],
   "note": "Full when the sum fits in a time.Duration; beyond, the timestamp goes back in time (C65_overflow_violated). C65_exact_iff: exactly when."
  },
  {
   "property": "C66",
   "status": "partial",
   "theorems": [
    "Syslog5424.C66_terminated_violated",
    "Syslog5424.C66_rfc5425_violated",
    "Syslog5424.C66_frames_before_partial"
   ],
   "note": "The claim is false with every transport: the unfinished frame is dropped silently (C66_terminated_violated, C66_rfc5425_violated); some cuts crash the program instead (C62_remote_crash_violated). What holds: the frames before the cut are delivered, and with RFC 5425 nothing crashes when the end of file comes alone, whatever the cut frame contains (C66_frames_before_partial)."
  },
  {
   "property": "C67",
   "status": "partial",
   "theorems": [
    "Syslog5424.C67_no_effect_violated",
    "Syslog5424.C67_round_trip_violated",
    "Syslog5424.C67_invalid_target_partial"
   ],
   "note": "The decoder is not implemented: it reports success and stores nothing. Proved: invalid targets are reported."
  },
  {
   "property": "C68",
   "status": "partial",
   "theorems": [
    "Syslog5424.C68_identifier_partial",
    "Syslog5424.C68_unknown_violated",
    "Syslog5424.C68_string_violated",
    "Syslog5424.C68_pointer",
    "Syslog5424.C68_enterprise",
    "Syslog5424.C68_key"
   ],
   "note": "Proved for TimeQuality and GenericSD of structs and maps; fails for unknown structured data, which all share one identifier, and for String()."
  },
  {
   "property": "C69",
   "status": "partial",
   "theorems": [
    "Syslog5424.C69_reencode_violated",
    "Syslog5424.C69_parameters_violated",
    "Syslog5424.C69_registered"
   ],
   "note": "Both halves fail: no element with a parameter is recognised, and what is recognised cannot be encoded. C69_registered: under which name a generic identifier is registered, and what it recognises."
  },
  {
   "property": "C70",
   "status": "partial",
   "theorems": [
    "Syslog5424.C70_closed_violated",
    "Syslog5424.C70_open_partial",
    "Syslog5424.C70_next_sender_violated"
   ],
   "note": "False: the stream is closed in every history in which End returns (C70_closed_violated); then the next sender loses everything and cannot be ended (C70_next_sender_violated). Proved: nothing is closed before End."
  },
  {
   "property": "C71",
   "status": "partial",
   "theorems": [
    "Syslog5424.C71_dial_violated",
    "Syslog5424.C71_end_violated",
    "Syslog5424.C71_crash_violated",
    "Syslog5424.C71_reported_partial"
   ],
   "note": "Dial accepts the address (C71_dial_violated); End never returns, or crashes (C71_end_violated, C71_crash_violated). Proved: each attempt reports its error."
  },
  {
   "property": "C72",
   "status": "partial",
   "theorems": [
    "Syslog5424.C72_cut_violated",
    "Syslog5424.C72_cut_not_sent_violated",
    "Syslog5424.C72_in_order_partial",
    "Syslog5424.C72_complete_partial",
    "Syslog5424.C72_end_partial",
    "Syslog5424.C72_reconnect_partial",
    "Syslog5424.C72_all_connections_partial",
    "Syslog5424.C72_crash_violated",
    "Syslog5424.C72_writev_partial"
   ],
   "note": "Proved for the composition of Sender and Receiver over the LF and the NUL transports, for messages without structured data and with a text without terminator, as long as the receiver has not crashed: on the first connection, and over any number of reconnections that happen between two frames. Violated: whatever is sent, a read that ends right after the '-' of the first message crashes the receiver (C72_crash_violated; C41_crashes_exactly: nothing else does). Outside the claim: messages without text or with structured data (C41_no_text_violated, C41_structured_data_violated); a reconnection after a write that was cut inside a frame (C37_reconnect_violated): then, whatever is sent, what is received first from the next connection is a piece of a message that was never sent, without error (C72_cut_violated)."
  },
  {
   "property": "C73",
   "status": "partial",
   "theorems": [
    "Syslog5424.C73_crash_violated",
    "Syslog5424.C73_sent",
    "Syslog5424.C73_received_partial",
    "Syslog5424.C73_complete_partial",
    "Syslog5424.C73_lines_received_partial",
    "Syslog5424.C73_all_connections_partial",
    "Syslog5424.C73_lines_all_connections_partial"
   ],
   "note": "C73_sent is complete: every list of log lines, no panic, exactly the right messages. C73_received_partial, C73_complete_partial (RFC 5425, one connection), C73_lines_received_partial (LF and NUL, LoggableLine), C73_all_connections_partial and C73_lines_all_connections_partial (several connections, changed between two frames) compose it with C53 and C72. Violated with the LF and NUL transports: an unlucky read crashes the receiver (C73_crash_violated). Missing: reconnection after a write cut in the middle of a message (C37_reconnect_violated), texts with ']' next to structured data (C12_text_violated), a Channel used by several goroutines while its table is built (C57_race_violated)."
  },
  {
   "property": "C74",
   "status": "partial",
   "theorems": [
    "Syslog5424.C74_each_datagram_partial",
    "Syslog5424.C74_received_partial",
    "Syslog5424.C74_any_size_partial",
    "Syslog5424.C74_any_size_lines_partial",
    "Syslog5424.C74_stall_violated"
   ],
   "note": "Complete for frames of at most 500 bytes (C74_each_datagram_partial, C74_received_partial; with the LF and NUL transports the text must not be empty or contain the terminator, C18/C41; next to structured data the texts that survive, C12; a failing Write accepts nothing, which is so for datagrams). Up to 64 KiB: in order and intact, as far as it goes (C74_any_size_partial, C74_any_size_lines_partial). C74_stall_violated: for larger frames the loop can stop for ever and take no datagram any more."
  },
  {
   "property": "C75",
   "status": "proved",
   "theorems": [
    "Syslog5424.C75_no_automatic_flush",
    "Syslog5424.C75_only_after_end"
   ],
   "note": "Full."
  },
  {
   "property": "C76",
   "status": "proved",
   "theorems": [
    "Syslog5424.C76_same",
    "Syslog5424.C76_converse",
    "Syslog5424.C76_exactly_once",
    "Syslog5424.C76_end_flushes",
    "Syslog5424.C76_flush",
    "Syslog5424.C76_first",
    "Syslog5424.C76_reported",
    "Syslog5424.C76_datagrams"
   ],
   "note": "Full, for the properties of the Sender listed; the datagram properties (C37_datagram_partial, C74) are about sockets that never use writev (C76_datagrams)."
  },
  {
   "property": "C77",
   "status": "partial",
   "theorems": [
    "Syslog5424.C77_one_by_one",
    "Syslog5424.C77_real_time",
    "Syslog5424.C77_program_order",
    "Syslog5424.C77_first_wins",
    "Syslog5424.C77_returns_partial",
    "Syslog5424.C77_lock_free",
    "Syslog5424.C77_reentrant_violated",
    "Syslog5424.C77_package"
   ],
   "note": "Linearizability, program order, real time order and the first registration are proved for all SDIDs (C77_one_by_one, C77_program_order, C77_real_time, C77_first_wins); that every call returns is proved when no Found method calls the package (C77_returns_partial), which is the case for the SDIDs of the package (C77_package), and violated otherwise: Parse holds a lock that is not reentrant while it calls Found, so a Found that calls Parse, Register or RegisterGroup blocks the registry for ever (C77_reentrant_violated)."
  },
  {
   "property": "C78",
   "status": "partial",
   "theorems": [
    "Syslog5424.C78_injective",
    "Syslog5424.C78_received",
    "Syslog5424.C78_arrives_partial",
    "Syslog5424.C78_names",
    "Syslog5424.C78_key_violated",
    "Syslog5424.C78_forged_violated",
    "Syslog5424.C78_tag_violated"
   ],
   "note": "Proved for every struct and map whose identifier and names are RFC 5424 names, with at least one value per element: C78_arrives_partial (parse of the frame), C78_received (after any theorem that concludes IsReceived: C53, C61, C72, C73, C74), C78_injective, and C78_names says that these are exactly the names that come back. Violated by the code: map keys are written raw, so that a key forges an element (C78_key_violated, C78_forged_violated), and tags with a space, '=' or ']' are accepted (C78_tag_violated). An element without value is C22's violation; a ']' in the text is C12's."
  },
  {
   "property": "C79",
   "status": "proved",
   "theorems": [
    "Syslog5424.C79_cut_from_wire",
    "Syslog5424.C79_receive"
   ],
   "note": "C79_cut_from_wire: for any byte stream, any segmentation and each of the three transports, a run that does not crash satisfies arrived = pieces.flatten ++ pending with each piece a frame accounting for one delivered pair (Spec/Wire.lean: RFC 5425 length headers with sign and leading zeros are allowed, because the code reads them; terminated messages are cut at the first terminator behind the byte that follows their structured data). C79_receive says it of what Receive returned from one connection. When the program crashes (C62, C41) nothing is said."
  },
  {
   "property": "C80",
   "status": "proved",
   "theorems": [
    "Syslog5424.C80_no_number",
    "Syslog5424.C80_functional",
    "Syslog5424.C80_decodes",
    "Syslog5424.C80_crashes_exactly",
    "Syslog5424.C80_segmentation",
    "Syslog5424.C80_receive"
   ],
   "note": "The reference decoder is Spec/Wire.lean (Ready, Decodes, CrashesOn): frames are cut from the front while at least 20 bytes are there, the bytes before the first space are a decimal number and the payload is complete. C80_decodes (any run that returns), C80_crashes_exactly (iff, any run), C80_functional (the reference is deterministic), C80_segmentation (two runs over the same bytes), C80_receive (what Receive returned). The same is false for the LF and NUL transports: C41_segmentation_violated. C80_no_number: nothing is ever delivered from a stream whose first word is not a number. The counterpart for LF and NUL is C89."
  },
  {
   "property": "C81",
   "status": "proved",
   "theorems": [
    "Syslog5424.C81_nil_exactly",
    "Syslog5424.C81_no_message",
    "Syslog5424.C81_total",
    "Syslog5424.C81_unique",
    "Syslog5424.C81_position",
    "Syslog5424.C81_rfc5425_exactly",
    "Syslog5424.C81_terminated_exactly",
    "Syslog5424.C81_received"
   ],
   "note": "The table of errors is Spec/Diagnosis.lean (Wrong), with the transport errors in Spec/Wire.lean (WrongFrame, WrongLine). The three *_exactly theorems are equivalences for every buffer. C81_total: Wrong covers exactly what is not a Frame; C81_unique: one error per input; C81_position: the byte at the position is the offending one; C81_received: what a receiver delivers. The copy of the data in a ParseError is not modelled. For RFC 5425 at end of file a payload that is cut is only reported (ErrTransportIncomplete) when what is there of it is malformed: see C13_truncated_violated."
  },
  {
   "property": "C82",
   "status": "partial",
   "theorems": [
    "Syslog5424.C82_written",
    "Syslog5424.C82_end_returns",
    "Syslog5424.C82_send_returns",
    "Syslog5424.C82_starved_violated"
   ],
   "note": "Fairness is stated in Spec/Fair.lean: weak fairness of the steps of the goroutine (Running), errors read (ErrorsRead), no failure from some moment on (Recovers), sends stop (SendsStop), and a select that is not biased for ever (NoticesEnd). C82_starved_violated shows that SendsStop cannot be dropped: an explicit infinite fair execution, without any failure, in which End never returns. Concrete infinite executions (a finite sequence of events with a loop) meet all the hypotheses of the three theorems."
  },
  {
   "property": "C83",
   "status": "proved",
   "theorems": [
    "Syslog5424.C83_received",
    "Syslog5424.C83_frames",
    "Syslog5424.C83_reads_on"
   ],
   "note": "Fairness in Spec/Fair.lean: Consumed (weak fairness of Receive), Served i (strong fairness of the sends of one connection's goroutine: Go serves blocked senders in order), ErrorsDrained. C83_received is for every transport, in terms of the tokenizer run; C83_frames states it with the reference decoder of C80; C83_reads_on is about Read and the deferred Close."
  },
  {
   "property": "C84",
   "status": "proved",
   "theorems": [
    "Syslog5424.C84_delivered",
    "Syslog5424.C84_lines",
    "Syslog5424.C84_end"
   ],
   "note": "Composition of C82 (everything is written), the network (Spec/Fair.lean: Link, faithful and live), C83 (everything decoded is received) and C53/C72 (what the decoded messages are). C84_end uses C82_end_returns and C35. The example at the end of Props/Delivery.lean is an infinite execution of both sides that meets every hypothesis. Sequences of connections (reconnect after a failed write) are not covered here: C37_reconnect_violated and C53_cut_violated show what happens then."
  },
  {
   "property": "C85",
   "status": "partial",
   "theorems": [
    "Syslog5424.C85_accepts",
    "Syslog5424.C85_ends",
    "Syslog5424.C85_stuck_violated"
   ],
   "note": "Violated when no connection comes after End: the goroutine stays in Accept and Receive blocks for ever (C85_stuck_violated, a fair endless execution). Proved otherwise. That the queue is closed while connections still send to it (a panic) is C45/C46."
  },
  {
   "property": "C86",
   "status": "partial",
   "theorems": [
    "Syslog5424.C86_builtin_parse",
    "Syslog5424.C86_builtin_run",
    "Syslog5424.C86_builtin_sender",
    "Syslog5424.C86_parse",
    "Syslog5424.C86_fault_violated",
    "Syslog5424.C86_reassembly",
    "Syslog5424.C86_sender",
    "Syslog5424.C86_end_to_end",
    "Syslog5424.C86_needs_progress",
    "Syslog5424.C86_rfc5425",
    "Syslog5424.C86_stuffing"
   ],
   "note": "Violated for errors: an error that PrefixStrip reports together with a well formed payload is lost (C86_fault_violated). Everything else is proved for every transport that meets the contract SelfDelimiting (Spec/UserTransport.lean). C86_builtin_*: with the built-in transports the open model is the model used everywhere else. C86_rfc5425 and C86_stuffing: RFC 5425 (frames of at least 20 bytes) and a byte stuffing transport meet the contract. C86_needs_progress: without it the loop of the receiver need not end."
  },
  {
   "property": "C87",
   "status": "partial",
   "theorems": [
    "Syslog5424.C87_only_after_end",
    "Syslog5424.C87_no_end_partial",
    "Syslog5424.C87_quiet_end_partial",
    "Syslog5424.C87_concurrent_end_violated"
   ],
   "note": "Violated: the deferred function of the sender's goroutine reads the length of the queue without the lock (connector.go:112); nothing orders it and a Send that is concurrent with End (C87_concurrent_end_violated, for every synchronisation the user may add). Proved: this is the only race (C87_only_after_end), so there is none while End is not called (C87_no_end_partial), nor when every accepted Send happens before End or after End returned (C87_quiet_end_partial)."
  },
  {
   "property": "C88",
   "status": "partial",
   "theorems": [
    "Syslog5424.C88_backpressure",
    "Syslog5424.C88_queues",
    "Syslog5424.C88_unread",
    "Syslog5424.C88_sender_violated"
   ],
   "note": "The receiver meets it (C88_backpressure, C88_queues, C88_unread). The sender violates it: its queue has no bound (C88_sender_violated)."
  },
  {
   "property": "C89",
   "status": "proved",
   "theorems": [
    "Syslog5424.C89_functional",
    "Syslog5424.C89_decodes",
    "Syslog5424.C89_crashes_exactly",
    "Syslog5424.C89_same_reads",
    "Syslog5424.C89_receive",
    "Syslog5424.C89_without_brackets",
    "Syslog5424.C89_segmentation"
   ],
   "note": "The counterpart of C80 for the terminated transports: a reference decoder (`DecodesReads`), exact for every list of reads, and the exact condition of a crash. With a closing bracket in the stream the reads do matter: C41_segmentation_violated."
  },
  {
   "property": "C90",
   "status": "partial",
   "theorems": [
    "Syslog5424.C90_any_time",
    "Syslog5424.C90_package",
    "Syslog5424.C90_no_overlap",
    "Syslog5424.C90_structured_data_partial",
    "Syslog5424.C90_structured_data_text_partial",
    "Syslog5424.C90_structured_data_violated"
   ],
   "note": "Violated for StructuredData and Writable: tqdef.Found compares the eleven bytes behind the opening bracket whatever the length of the element, so that for a short element at the end of a message it reads bytes that the next Read writes (a data race, without effect on the result: C90_any_time). Proved for every other accessor, and for these two when the text has ten bytes or more."
  },
  {
   "property": "C91",
   "status": "partial",
   "theorems": [
    "Syslog5424.C91_exactly_once",
    "Syslog5424.C91_reported",
    "Syslog5424.C91_same",
    "Syslog5424.C91_kept_violated",
    "Syslog5424.C91_used_violated",
    "Syslog5424.C91_crash_violated"
   ],
   "note": "The order and the reporting of errors are proved for all connectors (C91_same: with the connectors of C34 nothing changes). Violated: flushQueue assigns the connection before it looks at the error, so that the connection is kept and used until a Write fails; a nil connection without error makes the sender panic as soon as there is something to send."
  },
  {
   "property": "C92",
   "status": "proved",
   "theorems": [
    "Syslog5424.C92_linearizable",
    "Syslog5424.C92_order",
    "Syslog5424.C92_result",
    "Syslog5424.C92_end",
    "Syslog5424.C92_lock",
    "Syslog5424.C92_complete"
   ],
   "note": "Linearizability of Send and End: justifies that Model/Sender has one event per call; conversely (C92_complete) every history of that model comes from a history made of steps."
  },
  {
   "property": "C93",
   "status": "proved",
   "theorems": [
    "Syslog5424.C93_explained",
    "Syslog5424.C93_exact",
    "Syslog5424.C93_realised",
    "Syslog5424.C93_order",
    "Syslog5424.C93_doomed",
    "Syslog5424.C93_doomed_crash"
   ],
   "note": "Removes the simplification of Model/Receiver that one read is decoded in one event: the theorems about that model (C44, C45, C46, C63, ...) hold for the receiver that decodes message by message."
  },
  {
   "property": "C94",
   "status": "partial",
   "theorems": [
    "Syslog5424.C94_parse_printable",
    "Syslog5424.C94_parse_one_line",
    "Syslog5424.C94_shows_nil",
    "Syslog5424.C94_shows_terminated",
    "Syslog5424.C94_shows_rfc5425",
    "Syslog5424.C94_unambiguous",
    "Syslog5424.C94_tells_apart",
    "Syslog5424.C94_tokens_agree",
    "Syslog5424.C94_tokens_printable",
    "Syslog5424.C94_name_error",
    "Syslog5424.C94_header_error",
    "Syslog5424.C94_space_error",
    "Syslog5424.C94_value_error",
    "Syslog5424.C94_raw_texts",
    "Syslog5424.C94_raw_violated"
   ],
   "note": "Violated for Priority.Unmarshal5424, Priority.Set and Dial, whose errors print their argument as it is (C94_raw_violated). With a terminated transport the text shows all the bytes of the buffer, not only those of the line (C94_shows_terminated)."
  },
  {
   "property": "C95",
   "status": "partial",
   "theorems": [
    "Syslog5424.C95_valid",
    "Syslog5424.C95_invalid_unmarshal_partial",
    "Syslog5424.C95_short_texts_violated",
    "Syslog5424.C95_invalid_marshal",
    "Syslog5424.C95_generic_errors_violated",
    "Syslog5424.C95_parse_errors_violated",
    "Syslog5424.C95_custom",
    "Syslog5424.C95_generic_valid_violated",
    "Syslog5424.C95_generic_struct"
   ],
   "note": "Holds for the timeQuality identifier on texts of at least twelve bytes. Violated: short texts between brackets and the empty text panic (C95_short_texts_violated); errors of the generic encoder are compared by identity and allocated by the call, so that no TestInvalidMarshal of a generic element with an error ever passes (C95_generic_errors_violated); no TestValid ever passes on a generic identifier (C95_generic_valid_violated). Comparing two ParseError values panics (C95_parse_errors_violated). C95_generic_struct: the test of a generic struct passes exactly on its wire form."
  },
  {
   "property": "C96",
   "status": "partial",
   "theorems": [
    "Syslog5424.C96_element_partial",
    "Syslog5424.C96_exact",
    "Syslog5424.C96_message_partial",
    "Syslog5424.C96_tag_violated",
    "Syslog5424.C96_key_violated",
    "Syslog5424.C96_identifier_violated",
    "Syslog5424.C96_twice_violated"
   ],
   "note": "Proved if the identifier and the names are SD-NAMEs, and then only then (C96_exact, for names without delimiters). Violated: tags of more than 32 bytes or with letters that are not ASCII are accepted (C96_tag_violated), keys and identifiers are not checked (C96_key_violated, C96_identifier_violated), an identifier can occur twice (C96_twice_violated)."
  },
  {
   "property": "C97",
   "status": "partial",
   "theorems": [
    "Syslog5424.C97_timestamp",
    "Syslog5424.C97_rfc",
    "Syslog5424.C97_received",
    "Syslog5424.C97_lenient_violated"
   ],
   "note": "Proved: which byte strings are read, and as what (C97_timestamp, for every message Parse returns, whatever the transport); every RFC TIMESTAMP is read as the time it says (C97_rfc, C97_received). Violated: a comma as decimal point, hours of one digit, more than six digits and offsets up to 24:60 are not TIMESTAMPs and are read all the same (C97_lenient_violated)."
  },
  {
   "property": "C98",
   "status": "partial",
   "theorems": [
    "Syslog5424.C98_received_partial",
    "Syslog5424.C98_lines_received_partial",
    "Syslog5424.C98_complete_partial",
    "Syslog5424.C98_lines_complete_partial",
    "Syslog5424.C98_all_connections_partial",
    "Syslog5424.C98_lines_all_connections_partial",
    "Syslog5424.C98_race_violated"
   ],
   "note": "Proved at every moment (C98_received_partial, C98_lines_received_partial) and for the whole (C98_complete_partial, C98_lines_complete_partial), for lines that can be transmitted, on the first connection of the sender, if Channel was called once before the goroutines start. Over the several connections of a sender that reconnects: C98_all_connections_partial, C98_lines_all_connections_partial (each line received exactly once, if failing writes had accepted nothing). Without that call lines can be lost (C98_race_violated, the race of C57)."
  },
  {
   "property": "C99",
   "status": "partial",
   "theorems": [
    "Syslog5424.C99_registered",
    "Syslog5424.C99_package_partial",
    "Syslog5424.C99_itself",
    "Syslog5424.C99_content",
    "Syslog5424.C99_sent_partial",
    "Syslog5424.C99_short_violated"
   ],
   "note": "C99_registered for any registry; C99_package_partial, C99_itself, C99_content and C99_sent_partial for the identifiers of the package. Missing: elements shorter than a registered name, on which StructuredData panics when the buffer ends with them (C99_short_violated)."
  },
  {
   "property": "C100",
   "status": "partial",
   "theorems": [
    "Syslog5424.C100_delivered_partial",
    "Syslog5424.C100_lines_partial",
    "Syslog5424.C100_clean",
    "Syslog5424.C100_midframe_violated",
    "Syslog5424.C100_connection_partial",
    "Syslog5424.C100_connection_lines_partial"
   ],
   "note": "C100_delivered_partial (RFC 5425), C100_lines_partial (LF and NUL), C100_clean (when connections are changed between two frames). C100_connection_partial, C100_connection_lines_partial: with any failures, fair or not, what is written whole to a connection that began between two frames is received. Missing: connections that begin inside a frame (C53_cut_violated, C72_cut_violated), after a connection that fails inside a frame; then the message is lost although everything else works (C100_midframe_violated)."
  },
  {
   "property": "C101",
   "status": "partial",
   "theorems": [
    "Syslog5424.C101_logged_partial",
    "Syslog5424.C101_lines_partial"
   ],
   "note": "C101_logged_partial (RFC 5425, Loggable lines), C101_lines_partial (LF and NUL, LoggableLine lines). Missing: a connection that fails inside a frame (C100_midframe_violated, the same executions) and lines that cannot be transmitted (C12, C22, C41)."
  },
  {
   "property": "C102",
   "status": "proved",
   "theorems": [
    "Syslog5424.C102_shared",
    "Syslog5424.C102_atomic",
    "Syslog5424.C102_complete",
    "Syslog5424.C102_connection",
    "Syslog5424.C102_all",
    "Syslog5424.C102_ended",
    "Syslog5424.C102_one_worker",
    "Syslog5424.C102_returned",
    "Syslog5424.C102_delivered",
    "Syslog5424.C102_lines"
   ],
   "note": "C102_atomic relates the calls with a beginning and an end to the single events of Model/Receiver, so that all theorems about the receiver apply (C44, C45, C83); C102_shared, C102_connection, C102_all, C102_ended for every history; C102_one_worker, C102_returned, C102_delivered, C102_lines for fair executions. C102_complete: conversely every history of Model/Receiver comes from one in which one goroutine calls."
  },
  {
   "property": "C103",
   "status": "partial",
   "theorems": [
    "Syslog5424.C103_shared_partial",
    "Syslog5424.C103_no_race_partial",
    "Syslog5424.C103_first_partial",
    "Syslog5424.C103_channel",
    "Syslog5424.C103_sub_partial",
    "Syslog5424.C103_no_panic",
    "Syslog5424.C103_first_violated",
    "Syslog5424.C103_testMode_violated"
   ],
   "note": "C103_shared_partial, C103_no_race_partial (no race), C103_channel, C103_sub_partial (results), C103_no_panic for an object that is ready; C103_first_partial for a fresh one. Missing: two first calls of Channel at the same time race whatever the program does (C103_first_violated), and so do TestMode and SubSyslog, with a result that no order of the calls gives (C103_testMode_violated)."
  },
  {
   "property": "C104",
   "status": "partial",
   "theorems": [
    "Syslog5424.C104_send_returns",
    "Syslog5424.C104_end_returns",
    "Syslog5424.C104_delivered_partial",
    "Syslog5424.C104_lines_partial",
    "Syslog5424.C104_logged_partial",
    "Syslog5424.C104_logged_lines_partial"
   ],
   "note": "C104_send_returns and C104_end_returns (calls return; a message whose own marshaler never returns is excluded); C104_delivered_partial (RFC 5425), C104_lines_partial (LF, NUL): messages are received; C104_logged_partial, C104_logged_lines_partial: log lines. Missing: a write that fails in the middle of a frame, see C100_midframe_violated, and calls of Send that go on after End, see C82_starved_violated."
  },
  {
   "property": "C105",
   "status": "partial",
   "theorems": [
    "Syslog5424.C105_logged_partial",
    "Syslog5424.C105_lines_partial"
   ],
   "note": "C105_logged_partial (RFC 5425), C105_lines_partial (LF, NUL). Missing: a write that fails in the middle of a frame, see C100_midframe_violated."
  },
  {
   "property": "C106",
   "status": "partial",
   "theorems": [
    "Syslog5424.C106_hop_partial",
    "Syslog5424.C106_chain_partial",
    "Syslog5424.C106_unregistered",
    "Syslog5424.C106_package_partial",
    "Syslog5424.C106_in_order_partial",
    "Syslog5424.C106_complete_partial",
    "Syslog5424.C106_eventually_partial",
    "Syslog5424.C106_timequality_violated",
    "Syslog5424.C106_same_bytes_iff",
    "Syslog5424.C106_reproduces_iff"
   ],
   "note": "C106_hop_partial (one program), C106_chain_partial (any number), C106_unregistered and C106_package_partial (which registered identifiers are harmless), C106_in_order_partial, C106_complete_partial, C106_eventually_partial (two senders and two receivers). Missing: messages that do not travel over both transports (C53, C72), identifiers that do not reproduce what they read: C106_timequality_violated shows that a program which imports timequality panics or sends something unreadable for some messages that it has received. C106_reproduces_iff, C106_same_bytes_iff: with timequality imported, exactly which messages keep their bytes."
  },
  {
   "property": "C107",
   "status": "partial",
   "theorems": [
    "Syslog5424.C107_intact_iff",
    "Syslog5424.C107_forwarded_partial",
    "Syslog5424.C107_size",
    "Syslog5424.C107_relay_partial",
    "Syslog5424.C107_priority_violated",
    "Syslog5424.C107_offset_violated",
    "Syslog5424.C107_text_violated",
    "Syslog5424.C107_line_violated"
   ],
   "note": "C107_intact_iff (exact condition), C107_forwarded_partial (one message), C107_size, C107_relay_partial (two receivers and a sender). Missing, because false: priorities above 299 (C107_priority_violated), offsets of 25 hours (C107_offset_violated), texts next to structured data that begin or end with a bracket (C107_text_violated, C107_line_violated). Without registered identifiers; for registered ones see C106."
  },
  {
   "property": "C108",
   "status": "partial",
   "theorems": [
    "Syslog5424.C108_same_partial",
    "Syslog5424.C108_order_partial",
    "Syslog5424.C108_conversely",
    "Syslog5424.C108_both",
    "Syslog5424.C108_crashes",
    "Syslog5424.C108_neither_violated",
    "Syslog5424.C108_over_violated"
   ],
   "note": "C108_same_partial, C108_order_partial: as long as the program has not crashed. C108_both: a connection that comes with an error. C108_crashes is the complete list of what can crash it. Missing, because false: Accept that returns neither a connection nor an error (C108_neither_violated), Read that returns more than it has room for (C108_over_violated). C108_conversely: every history of the receiver with the library's own listeners is also a history of the receiver whose listener is the user's (nothing is lost by the generalisation)."
  },
  {
   "property": "C109",
   "status": "partial",
   "theorems": [
    "Syslog5424.C109_counts",
    "Syslog5424.C109_same_partial",
    "Syslog5424.C109_exactly_once_partial",
    "Syslog5424.C109_scrambled_violated",
    "Syslog5424.C109_spin_violated",
    "Syslog5424.C109_lost_violated"
   ],
   "note": "C109_exactly_once_partial, C109_same_partial: if a short write without an error happens only for the last frame of the queue, everything is as with writers that keep the contract of io.Writer (all theorems about histories of the sender apply). C109_counts: the number of bytes is right for every writer that does not report too many. Missing, because false: a short write before other frames scrambles the stream silently (C109_scrambled_violated), a writer that accepts nothing is called for ever under the lock (C109_spin_violated), a writer that reports too many with an error loses the next message (C109_lost_violated)."
  },
  {
   "property": "C110",
   "status": "partial",
   "theorems": [
    "Syslog5424.C110_delivered_partial"
   ],
   "note": "C110_delivered_partial: for messages of at most 500 bytes with the framing (with the LF and NUL transports with a text without the terminator), while nothing crashes and End is not called. Missing, because false: longer messages, with which the loop of the receiver can stop (C74_stall_violated)."
  },
  {
   "property": "C111",
   "status": "partial",
   "theorems": [
    "Syslog5424.C111_no_effect_partial",
    "Syslog5424.C111_written_partial",
    "Syslog5424.C111_encode_violated"
   ],
   "note": "C111_no_effect_partial, C111_written_partial: for the transports of the package, whose Encode never panics (the panics are those of Marshal5424, before the lock is taken, and of a second End). Missing, because false: a transport of a user, or none, whose Encode panics while Send holds the lock - C111_encode_violated: the lock is never released, nothing is ever queued or written again, no Send returns and End never completes if something waits."
  },
  {
   "property": "C112",
   "status": "proved",
   "theorems": [
    "Syslog5424.C112_ticks",
    "Syslog5424.C112_one_flush",
    "Syslog5424.C112_time",
    "Syslog5424.C112_calls"
   ],
   "note": "C112_ticks, C112_one_flush: counted in ticks; C112_time: in time, for histories where every event has a time; C112_calls: for calls of Send by several goroutines. A write that fails with ENOBUFS counts as a failure. That ticks are received is a hypothesis: a sender that nobody reads errors from stops (C38_connect_errors_violated)."
  },
  {
   "property": "C113",
   "status": "partial",
   "theorems": [
    "Syslog5424.C113_delivered_partial",
    "Syslog5424.C113_logged_partial"
   ],
   "note": "C113_delivered_partial: for messages given to Send; C113_logged_partial: for log lines. End is not called; the schedulers are fair; a Write is one datagram or accepts nothing. Missing: lines of more than 500 bytes, see C74_stall_violated."
  },
  {
   "property": "C114",
   "status": "partial",
   "theorems": [
    "Syslog5424.C114_delivered_partial",
    "Syslog5424.C114_lines_partial",
    "Syslog5424.C114_logged_partial",
    "Syslog5424.C114_logged_lines_partial",
    "Syslog5424.C114_gram_partial",
    "Syslog5424.C114_gram_logged_partial",
    "Syslog5424.C114_gram_mixed_partial"
   ],
   "note": "C114_delivered_partial, C114_lines_partial: messages over streams; C114_logged_partial, C114_logged_lines_partial: log lines over streams; C114_gram_mixed_partial: many programs over a datagram socket, of which some exit and the others go on for ever; C114_gram_partial, C114_gram_logged_partial: many programs, one datagram socket. No fairness of the sender is assumed: End has returned. Missing: writes that fail in the middle of a frame (C100_midframe_violated), datagrams of more than 500 bytes (C74_stall_violated)."
  },
  {
   "property": "C115",
   "status": "partial",
   "theorems": [
    "Syslog5424.C115_delivered_partial",
    "Syslog5424.C115_only_partial",
    "Syslog5424.C115_origin_partial",
    "Syslog5424.C115_logged_partial",
    "Syslog5424.C115_logged_origin_partial"
   ],
   "note": "C115_delivered_partial: messages, the three transports; C115_only_partial: nothing else, at every moment; C115_origin_partial: the program a message came from; C115_logged_partial, C115_logged_origin_partial: log lines. Missing: writes that fail in the middle of a frame (C100_midframe_violated)."
  },
  {
   "property": "C116",
   "status": "partial",
   "theorems": [
    "Syslog5424.C116_resync_partial",
    "Syslog5424.C116_stuck_violated",
    "Syslog5424.C116_eventually_partial",
    "Syslog5424.C116_first_exactly",
    "Syslog5424.C116_words_eventually"
   ],
   "note": "C116_resync_partial: at every moment the first pair is the rest of the cut frame with j whole frames behind it, all pairs after it are the messages behind these; j is at most one as long as no closing bracket arrives; what has arrived whole has been delivered when nothing waits. C116_eventually_partial, C116_words_eventually: in fair executions, eventually. C116_first_exactly: whether anything is received from the connection at all, exactly (without closing brackets): iff the bytes begin with seven words. So the claim is violated e.g. after a cut before a space: nothing is ever received (C116_stuck_violated)."
  },
  {
   "property": "C117",
   "status": "proved",
   "theorems": [
    "Syslog5424.C117_two_per_cut",
    "Syslog5424.C117_logged"
   ],
   "note": "C117_two_per_cut, all connections of a sender together, with the count of the missing messages. The condition on seven words is exact: without it nothing is received from the connection (C116_first_exactly). With the RFC 5425 transport the claim is false: a cut frame can end the reading of the connection (C53_cut_violated). C117_logged: the same for the lines of a program that logs, without closing brackets and structured data."
  },
  {
   "property": "C118",
   "status": "partial",
   "theorems": [
    "Syslog5424.C118_received_partial",
    "Syslog5424.C118_complete_partial",
    "Syslog5424.C118_without_sub",
    "Syslog5424.C118_sub_ready",
    "Syslog5424.C118_sub_violated",
    "Syslog5424.C118_eventually_partial",
    "Syslog5424.C118_gram_partial",
    "Syslog5424.C118_server_partial",
    "Syslog5424.C118_origin_partial"
   ],
   "note": "Proved at every moment on the first connection (C118_received_partial) and for the whole over all connections of a sender whose failing writes had accepted nothing (C118_complete_partial), for lines that the transport carries; and for programs that log for ever in every fair execution (C118_eventually_partial: each line is received). C118_server_partial, C118_origin_partial: many such programs and one log server with several goroutines that receive; some go on for ever, some exit; C118_gram_partial: the same over a datagram socket. Channel must have been called on each object that New returned before the goroutines start (otherwise C57_race_violated); not on what SubSyslog returned (C118_sub_ready). The name given to SubSyslog is not sanitised: if it makes the application name invalid and the line has no AppName, the fields move (C118_sub_violated); without SubSyslog nothing is asked (C118_without_sub). TestMode is not used."
  }
 ]
}