{
 "claims": [
  {
   "property": "C01",
   "status": "proved",
   "theorems": [
    "Verif.Utility.C01_decode_encode",
    "Verif.Utility.C01_encode_safe",
    "Verif.Utility.C01_encode_unreserved"
   ],
   "note": ""
  },
  {
   "property": "C02",
   "status": "proved",
   "theorems": [
    "Verif.Utility.C02_decode_exact",
    "Verif.Utility.C02_decode_length",
    "Verif.Utility.C02_decode_no_percent",
    "Verif.Utility.C02_decode_incomplete",
    "Verif.Utility.C02_decode_plus"
   ],
   "note": ""
  },
  {
   "property": "C03",
   "status": "proved",
   "theorems": [
    "Verif.Utility.C03_escape_safe",
    "Verif.Utility.C03_escape_no_markup",
    "Verif.Utility.C03_escape_injective"
   ],
   "note": ""
  },
  {
   "property": "C04",
   "status": "proved",
   "theorems": [
    "Verif.Utility.C04_iequals_exact",
    "Verif.Utility.C04_iequals_lower",
    "Verif.Utility.C04_iequals_equivalence",
    "Verif.Utility.C04_lower_exact"
   ],
   "note": ""
  },
  {
   "property": "C05",
   "status": "proved",
   "theorems": [
    "Verif.Utility.C05_split_trim_exact",
    "Verif.Utility.C05_trim_exact",
    "Verif.Utility.C05_split_view_exact"
   ],
   "note": ""
  },
  {
   "property": "C06",
   "status": "proved",
   "theorems": [
    "Verif.Utility.C06_split_by_exact",
    "Verif.Utility.C06_split_by_join",
    "Verif.Utility.C06_split_by_parts",
    "Verif.Utility.C06_split_string_exact",
    "Verif.Utility.C06_split_string_pred",
    "Verif.Utility.C06_fields_unique"
   ],
   "note": ""
  },
  {
   "property": "C07",
   "status": "proved",
   "theorems": [
    "Verif.Router.C07_match_sound",
    "Verif.Router.C07_bindings_unique"
   ],
   "note": ""
  },
  {
   "property": "C08",
   "status": "proved",
   "theorems": [
    "Verif.Router.C08_match_complete"
   ],
   "note": ""
  },
  {
   "property": "C09",
   "status": "proved",
   "theorems": [
    "Verif.Router.C09_match_priority",
    "Verif.Router.C09_priority_strict"
   ],
   "note": ""
  },
  {
   "property": "C10",
   "status": "proved",
   "theorems": [
    "Verif.Router.C10_replace",
    "Verif.Router.C10_frame",
    "Verif.Router.C10_throw_no_effect",
    "Verif.Router.C10_accepted_wellformed"
   ],
   "note": ""
  },
  {
   "property": "C11",
   "status": "proved",
   "theorems": [
    "Verif.Router.C11_allowed_iff_match",
    "Verif.Router.C11_allowed_sorted",
    "Verif.Router.C11_not_found_iff"
   ],
   "note": ""
  },
  {
   "property": "C12",
   "status": "proved",
   "theorems": [
    "Verif.Router.C12_segments_exact",
    "Verif.Router.C12_segments_wf",
    "Verif.Router.C12_same_segments"
   ],
   "note": ""
  },
  {
   "property": "C13",
   "status": "proved",
   "theorems": [
    "Verif.Hpack.C13_int_roundtrip",
    "Verif.Hpack.C13_int_encoding"
   ],
   "note": ""
  },
  {
   "property": "C14",
   "status": "proved",
   "theorems": [
    "Verif.Hpack.C14_int_decode_exact"
   ],
   "note": ""
  },
  {
   "property": "C15",
   "status": "proved",
   "theorems": [
    "Verif.Hpack.C15_huffman_roundtrip",
    "Verif.Hpack.C15_huffman_encoding",
    "Verif.Hpack.C15_should_use_huffman"
   ],
   "note": ""
  },
  {
   "property": "C16",
   "status": "proved",
   "theorems": [
    "Verif.Hpack.C16_huffman_decode_exact",
    "Verif.Hpack.C16_huffman_canonical",
    "Verif.Hpack.C16_prefix_free"
   ],
   "note": ""
  },
  {
   "property": "C17",
   "status": "proved",
   "theorems": [
    "Verif.Hpack.C17_size_bound",
    "Verif.Hpack.C17_keeps_most_recent",
    "Verif.Hpack.C17_decoder_table_bounded"
   ],
   "note": ""
  },
  {
   "property": "C18",
   "status": "proved",
   "theorems": [
    "Verif.Hpack.C18_ring_refines_list",
    "Verif.Hpack.C18_live_slots_distinct"
   ],
   "note": ""
  },
  {
   "property": "C19",
   "status": "proved",
   "theorems": [
    "Verif.Hpack.C19_codec_synchronised",
    "Verif.Hpack.C19_block_roundtrip"
   ],
   "note": ""
  },
  {
   "property": "C20",
   "status": "proved",
   "theorems": [
    "Verif.Hpack.C20_secrets_never_indexed",
    "Verif.Hpack.C20_secret_representation"
   ],
   "note": ""
  },
  {
   "property": "C21",
   "status": "proved",
   "theorems": [
    "Verif.Hpack.C21_header_list_limit",
    "Verif.Hpack.C21_loop_bound_irrelevant"
   ],
   "note": ""
  },
  {
   "property": "C22",
   "status": "partial",
   "theorems": [
    "Verif.Hpack.C22_false",
    "Verif.Hpack.C22_desynchronises",
    "Verif.Hpack.C22_failed_encode_partial"
   ],
   "note": "The full statement is FALSE of the code (C22_false, C22_desynchronises: Encoder::encode inserts earlier fields before it rejects a later one). C22_failed_encode_partial proves exactly what remains: the table is the one after the valid prefix."
  },
  {
   "property": "C23",
   "status": "partial",
   "theorems": [
    "Verif.H2.C23_frames_roundtrip_partial",
    "Verif.H2.C23_single_frame",
    "Verif.H2.C23_segmentation",
    "Verif.H2.C23_length_field",
    "Verif.H2.C23_false_priority"
   ],
   "note": "All frame sequences except those with an empty final CONTINUATION (see C25_false_stuck) and HEADERS with priority information, which the serializer does not write."
  },
  {
   "property": "C24",
   "status": "proved",
   "theorems": [
    "Verif.H2.C24_reassembles",
    "Verif.H2.C24_fragment_size",
    "Verif.H2.C24_end_headers_exactly_last",
    "Verif.H2.C24_shape",
    "Verif.H2.C24_received",
    "Verif.H2.C24_peer_limit",
    "Verif.H2.C24_within_advertised"
   ],
   "note": ""
  },
  {
   "property": "C25",
   "status": "partial",
   "theorems": [
    "Verif.H2.C25_not_interleaved_partial",
    "Verif.H2.C25_released_partial",
    "Verif.H2.C25_false",
    "Verif.H2.C25_false_stuck"
   ],
   "note": "FALSE of the code for zero-length frames (C25_false: empty HEADERS without END_HEADERS does not open a block; C25_false_stuck: empty CONTINUATION with END_HEADERS does not close it). The two _partial theorems prove both halves for every byte stream without such frames."
  },
  {
   "property": "C26",
   "status": "partial",
   "theorems": [
    "Verif.H2.C26_padded_data",
    "Verif.H2.C26_malformed_rejected_partial",
    "Verif.H2.C26_pad_too_long",
    "Verif.H2.C26_empty_padded_accepted",
    "Verif.H2.C26_empty_malformed_rejected",
    "Verif.H2.C26_connection_frames_on_stream_zero"
   ],
   "note": "Exact for every non-empty payload (with C44); zero-length frames with PADDED set are delivered instead of rejected (C26_empty_padded_accepted)."
  },
  {
   "property": "C27",
   "status": "proved",
   "theorems": [
    "Verif.H2.C27_frame_size",
    "Verif.H2.C27_oversize_rejected"
   ],
   "note": ""
  },
  {
   "property": "C28",
   "status": "partial",
   "theorems": [
    "Verif.Stream.C28_peer_window_partial",
    "Verif.Stream.C28_overflow_refused",
    "Verif.Stream.C28_window_no_overflow",
    "Verif.Stream.C28_false_shrink_refused",
    "Verif.Stream.C28_false_sentinel",
    "Verif.Stream.C28_false_negative"
   ],
   "note": "FALSE of the code as stated (C28_false_shrink_refused, C28_false_sentinel, C28_false_negative); C28_peer_window_partial proves the exact shift whenever window+|delta| is within 2^31-1 and is not the -1 sentinel."
  },
  {
   "property": "C29",
   "status": "proved",
   "theorems": [
    "Verif.Stream.C29_state_exact",
    "Verif.Stream.C29_steps_legal",
    "Verif.Stream.C29_closed_final",
    "Verif.Stream.C29_predicates"
   ],
   "note": ""
  },
  {
   "property": "C30",
   "status": "proved",
   "theorems": [
    "Verif.Stream.C30_content_length_exact",
    "Verif.Stream.C30_content_length_reject"
   ],
   "note": ""
  },
  {
   "property": "C31",
   "status": "proved",
   "theorems": [
    "Verif.Stream.C31_request_pseudo_exact",
    "Verif.Stream.C31_order_exact"
   ],
   "note": ""
  },
  {
   "property": "C32",
   "status": "proved",
   "theorems": [
    "Verif.Ws.C32_serialize_exact",
    "Verif.Ws.C32_roundtrip"
   ],
   "note": ""
  },
  {
   "property": "C33",
   "status": "proved",
   "theorems": [
    "Verif.Ws.C33_reassembly"
   ],
   "note": ""
  },
  {
   "property": "C34",
   "status": "proved",
   "theorems": [
    "Verif.Ws.C34_stream",
    "Verif.Ws.C34_accepts_legal",
    "Verif.Ws.C34_dead_is_final",
    "Verif.Ws.C34_fail_sends_close"
   ],
   "note": ""
  },
  {
   "property": "C35",
   "status": "proved",
   "theorems": [
    "Verif.Ws.C35_message_limit",
    "Verif.Ws.C35_buffer_limit",
    "Verif.Ws.C35_oversize_refused"
   ],
   "note": ""
  },
  {
   "property": "C36",
   "status": "proved",
   "theorems": [
    "Verif.Ws.C36_utf8_exact"
   ],
   "note": ""
  },
  {
   "property": "C37",
   "status": "proved",
   "theorems": [
    "Verif.Ws.C37_close_fails_iff",
    "Verif.Ws.C37_close_valid"
   ],
   "note": ""
  },
  {
   "property": "C38",
   "status": "proved",
   "theorems": [
    "Verif.Context.C38_at_most_once",
    "Verif.Context.C38_finalised_responded",
    "Verif.Context.C38_exactly_once_at_destruction"
   ],
   "note": ""
  },
  {
   "property": "C39",
   "status": "proved",
   "theorems": [
    "Verif.Context.C39_tasks_in_order",
    "Verif.Context.C39_tasks_in_order_hooks",
    "Verif.Context.C39_none_after_termination",
    "Verif.Context.C39_none_after_complete",
    "Verif.Context.C39_double_completion_runs_on",
    "Verif.Context.C39_continue_starts_next",
    "Verif.Context.C39_end_of_chain_finalises",
    "Verif.Context.C39_complete_finalises",
    "Verif.Context.C39_start_runs_first"
   ],
   "note": "Proved under the property's own premise that each task completes once; C39_double_completion_runs_on exhibits what happens without it."
  },
  {
   "property": "C40",
   "status": "partial",
   "theorems": [
    "Verif.Context.C40_error_chain_once",
    "Verif.Context.C40_error_runs_chain",
    "Verif.Context.C40_error_in_error_chain",
    "Verif.Context.C40_false_prerouting",
    "Verif.Context.C40_fatal_500",
    "Verif.Context.C40_throw_is_error"
   ],
   "note": "Proved for every execution in which no hook calls complete(ERROR) before the routed chain starts; FALSE otherwise (C40_false_prerouting: a PRE_ROUTING hook that completes with ERROR lets the error chain be entered twice)."
  },
  {
   "property": "C41",
   "status": "partial",
   "theorems": [
    "Verif.Context.C41_sticky",
    "Verif.Context.C41_late_calls_ignored",
    "Verif.Context.C41_status_503",
    "Verif.Context.C41_cancel_503_partial",
    "Verif.Context.C41_false_reentrant_cancel",
    "Verif.Context.C41_task_notified"
   ],
   "note": "C41_false_reentrant_cancel: a task whose cancel() calls complete() re-entrantly finalises with the old status before 503 is set. C41_cancel_503_partial proves the 503 outcome otherwise; stickiness and ignored late calls are proved for all schedules."
  },
  {
   "property": "C42",
   "status": "proved",
   "theorems": [
    "Verif.Hpack.C42_find_name_exact",
    "Verif.Hpack.C42_find_exact_exact"
   ],
   "note": ""
  },
  {
   "property": "C43",
   "status": "proved",
   "theorems": [
    "Verif.H2.C43_nothing_after_failure",
    "Verif.H2.C43_preface",
    "Verif.H2.C43_preface_accepted"
   ],
   "note": ""
  },
  {
   "property": "C44",
   "status": "proved",
   "theorems": [
    "Verif.H2.C44_received_exactly",
    "Verif.H2.C44_header_fields",
    "Verif.H2.C44_empty_received_exactly"
   ],
   "note": ""
  },
  {
   "property": "C45",
   "status": "proved",
   "theorems": [
    "Verif.Stream.C45_receive_window",
    "Verif.Stream.C45_no_zero_update",
    "Verif.Stream.C45_small_window"
   ],
   "note": ""
  },
  {
   "property": "C46",
   "status": "proved",
   "theorems": [
    "Verif.Stream.C46_response_pseudo_exact"
   ],
   "note": ""
  },
  {
   "property": "C47",
   "status": "proved",
   "theorems": [
    "Verif.Stream.C47_header_field_exact",
    "Verif.Stream.C47_no_injection",
    "Verif.Stream.C47_forbidden_exact"
   ],
   "note": ""
  },
  {
   "property": "C48",
   "status": "proved",
   "theorems": [
    "Verif.Stream.C48_te_exact"
   ],
   "note": ""
  },
  {
   "property": "C49",
   "status": "proved",
   "theorems": [
    "Verif.Stream.C49_setting_exact",
    "Verif.Stream.C49_frame_size",
    "Verif.Stream.C49_stream_id_exact",
    "Verif.Stream.C49_escalation_exact"
   ],
   "note": ""
  },
  {
   "property": "C50",
   "status": "proved",
   "theorems": [
    "Verif.Ws.C50_chunk_independent"
   ],
   "note": ""
  },
  {
   "property": "C51",
   "status": "proved",
   "theorems": [
    "Verif.Ws.C51_delivered_valid"
   ],
   "note": ""
  },
  {
   "property": "C52",
   "status": "proved",
   "theorems": [
    "Verif.Ws.C52_replies_legal"
   ],
   "note": ""
  },
  {
   "property": "C53",
   "status": "partial",
   "theorems": [
    "Verif.Router.C53_accepted_sound",
    "Verif.Router.C53_accept_iff_partial",
    "Verif.Router.C53_false_poisoned"
   ],
   "note": "Soundness for every history; the iff for histories without a refused call. FALSE after a refused call (C53_false_poisoned): add_route leaves nodes behind when it throws, and their capture names then refuse later valid routes."
  },
  {
   "property": "C54",
   "status": "proved",
   "theorems": [
    "Verif.Hpack.C54_decode_exact"
   ],
   "note": ""
  },
  {
   "property": "C55",
   "status": "proved",
   "theorems": [
    "Verif.Hpack.C55_encode_accepts_iff"
   ],
   "note": ""
  },
  {
   "property": "C56",
   "status": "partial",
   "theorems": [
    "Verif.Hpack.C56_unannounced_shrink",
    "Verif.Hpack.C56_false_own_capacity"
   ],
   "note": "Proved for encoders whose capacity is the default 4096 (the decoder's default). FALSE for the capacity the protocol classes configure (C56_false_own_capacity: the encoder's capacity is set from the endpoint's OWN header_table_size)."
  },
  {
   "property": "C57",
   "status": "proved",
   "theorems": [
    "Verif.Date.C57_calendar_exists_unique",
    "Verif.Date.C57_format_http_date"
   ],
   "note": ""
  },
  {
   "property": "C58",
   "status": "proved",
   "theorems": [
    "Verif.Date.C58_parses_imf_fixdate",
    "Verif.Date.C58_parses_rfc850",
    "Verif.Date.C58_parses_asctime",
    "Verif.Date.C58_roundtrip"
   ],
   "note": ""
  },
  {
   "property": "C59",
   "status": "partial",
   "theorems": [
    "Verif.Date.C59_only_real_dates",
    "Verif.Date.C59_imf_exact_partial",
    "Verif.Date.C59_false_garbage",
    "Verif.Date.C59_reads_exactly"
   ],
   "note": "C59_only_real_dates is unconditional; exactness is FALSE (C59_false_garbage: from_chars leftovers and the day name are ignored). C59_imf_exact_partial proves it for 29-octet inputs with digit-only numeric fields."
  },
  {
   "property": "C60",
   "status": "partial",
   "theorems": [
    "Verif.Static.C60_contained_partial",
    "Verif.Static.C60_false_index_symlink"
   ],
   "note": "Proved for every request and file tree when no directory under the root has the index file name as a symbolic link (or index files are off). FALSE otherwise (C60_false_index_symlink: the index file is opened without re-resolving, so a link leads out of the root)."
  },
  {
   "property": "C61",
   "status": "partial",
   "theorems": [
    "Verif.Static.C61_no_link_partial",
    "Verif.Static.C61_false_missing_parent",
    "Verif.Static.C61_false_index_symlink"
   ],
   "note": "Proved for request paths without `..`; FALSE with them (C61_false_missing_parent) and for index files (C61_false_index_symlink)."
  },
  {
   "property": "C62",
   "status": "proved",
   "theorems": [
    "Verif.Static.C62_range_exact",
    "Verif.Static.C62_range_inside",
    "Verif.Static.C62_partial_content",
    "Verif.Static.C62_unsatisfiable",
    "Verif.Static.C62_false_large_number"
   ],
   "note": "Numbers up to 2^63-1; larger ones are refused with 416 although RFC 9110 clips them (C62_false_large_number)."
  },
  {
   "property": "C63",
   "status": "partial",
   "theorems": [
    "Verif.Static.C63_weak_comparison_partial",
    "Verif.Static.C63_star",
    "Verif.Static.C63_false_star_in_tag",
    "Verif.Static.C63_not_modified",
    "Verif.Static.C63_plain_conditional_partial",
    "Verif.Static.C63_false_date_with_tag",
    "Verif.Static.C63_etag_distinguishes"
   ],
   "note": "Exact for all tag lists except tags holding both a comma and a star (C63_false_star_in_tag). If-Modified-Since is evaluated although If-None-Match is present (C63_false_date_with_tag)."
  },
  {
   "property": "C64",
   "status": "proved",
   "theorems": [
    "Verif.Static.C64_serves",
    "Verif.Static.C64_serves_range",
    "Verif.Static.C64_size_limit",
    "Verif.Static.C64_head_like_get",
    "Verif.Static.C64_passes_on",
    "Verif.Static.C64_content_type",
    "Verif.Static.C64_serves_type"
   ],
   "note": ""
  },
  {
   "property": "C65",
   "status": "proved",
   "theorems": [
    "Verif.Context.C65_no_finalisation_in_scope",
    "Verif.Context.C65_release",
    "Verif.Context.C65_completion_remembered"
   ],
   "note": ""
  },
  {
   "property": "C66",
   "status": "proved",
   "theorems": [
    "Verif.Cookie.C66_serializable_iff",
    "Verif.Cookie.C66_header_exact"
   ],
   "note": ""
  },
  {
   "property": "C67",
   "status": "partial",
   "theorems": [
    "Verif.Cookie.C67_roundtrip_partial",
    "Verif.Cookie.C67_false_lossy"
   ],
   "note": "FALSE in general (C67_false_lossy: quotes around a value and an empty path are lost). C67_roundtrip_partial proves the round trip for every cookie whose value, domain and path have no outer spaces or surrounding quotes, whose path is not empty and whose expiry year is in 1000..9999; qb::to_number<int> is a parameter assumed to read the number back."
  },
  {
   "property": "C68",
   "status": "proved",
   "theorems": [
    "Verif.Cookie.C68_refused_iff",
    "Verif.Cookie.C68_name_value",
    "Verif.Cookie.C68_attributes"
   ],
   "note": ""
  },
  {
   "property": "C69",
   "status": "proved",
   "theorems": [
    "Verif.Cookie.C69_wellformed",
    "Verif.Cookie.C69_quoted",
    "Verif.Cookie.C69_entries",
    "Verif.Cookie.C69_no_control",
    "Verif.Cookie.C69_false_escape",
    "Verif.Cookie.C69_unterminated"
   ],
   "note": "C69_false_escape shows the control-character guarantee does not extend to backslash-escaped octets in quoted values."
  },
  {
   "property": "C70",
   "status": "proved",
   "theorems": [
    "Verif.Cookie.C70_last_call",
    "Verif.Cookie.C70_remove_result",
    "Verif.Cookie.C70_one_entry",
    "Verif.Cookie.C70_request",
    "Verif.Cookie.C70_response",
    "Verif.Cookie.C70_update_header",
    "Verif.Cookie.C70_update_readable"
   ],
   "note": ""
  },
  {
   "property": "C71",
   "status": "proved",
   "theorems": [
    "Verif.Wire.C71_unique",
    "Verif.Wire.C71_unambiguous"
   ],
   "note": ""
  },
  {
   "property": "C72",
   "status": "partial",
   "theorems": [
    "Verif.Wire.C72_request_partial",
    "Verif.Wire.C72_false_empty_chunked",
    "Verif.Wire.C72_accepted",
    "Verif.Wire.C72_false_line_break"
   ],
   "note": "Acceptance is exact (C72_accepted). FALSE of the code for a chunked request with an empty body (C72_false_empty_chunked: no terminating chunk); the request line is a hypothesis because path and query are written unchecked (C72_false_line_break). C72_request_partial is the full statement outside these two cases."
  },
  {
   "property": "C73",
   "status": "partial",
   "theorems": [
    "Verif.Wire.C73_bodiless",
    "Verif.Wire.C73_response_partial",
    "Verif.Wire.C73_accepted",
    "Verif.Wire.C73_false_declared_length",
    "Verif.Wire.C73_false_empty_chunked"
   ],
   "note": "Acceptance is exact (C73_accepted), bodiless statuses are complete (C73_bodiless). FALSE with an empty body and a declared non-zero length (C73_false_declared_length) or the chunked coding (C73_false_empty_chunked); C73_response_partial is the full statement otherwise."
  },
  {
   "property": "C74",
   "status": "proved",
   "theorems": [
    "Verif.Wire.C74_pipeline"
   ],
   "note": "For requests to which C72_request_partial applies."
  },
  {
   "property": "C75",
   "status": "proved",
   "theorems": [
    "Verif.Parse.C75_head"
   ],
   "note": ""
  },
  {
   "property": "C76",
   "status": "partial",
   "theorems": [
    "Verif.Parse.C76_message",
    "Verif.Parse.C76_fragmentation",
    "Verif.Parse.C76_false_piece"
   ],
   "note": "C76_message is exact; independence of fragmentation holds when no body piece exceeds 16 MiB and is FALSE otherwise (C76_false_piece). A message without Content-Type gains an empty one (visible in C76_message)."
  },
  {
   "property": "C77",
   "status": "partial",
   "theorems": [
    "Verif.Parse.C77_no_trailers_partial",
    "Verif.Parse.C77_false_trailers"
   ],
   "note": "FALSE of the code: trailer fields (all but the last) are added to the header map after validation (C77_false_trailers). C77_no_trailers_partial covers messages without trailers."
  },
  {
   "property": "C78",
   "status": "proved",
   "theorems": [
    "Verif.Parse.C78_read_splitting",
    "Verif.Parse.C78_delivers",
    "Verif.Parse.C78_forbidden",
    "Verif.Parse.C78_until_close",
    "Verif.Parse.C78_truncated"
   ],
   "note": "llhttp is external: the theorem is about every engine satisfying the streaming laws (structure Lawful), with toy_lawful as an instance."
  },
  {
   "property": "C79",
   "status": "proved",
   "theorems": [
    "Verif.Rate.C79_limit",
    "Verif.Rate.C79_first_window"
   ],
   "note": "Time in nanoseconds, monotone; qb::duration is external and taken as nanoseconds."
  },
  {
   "property": "C80",
   "status": "proved",
   "theorems": [
    "Verif.Rate.C80_no_early_refusal"
   ],
   "note": ""
  },
  {
   "property": "C81",
   "status": "proved",
   "theorems": [
    "Verif.Rate.C81_bounded",
    "Verif.Rate.C81_full_only_if_busy"
   ],
   "note": ""
  },
  {
   "property": "C82",
   "status": "partial",
   "theorems": [
    "Verif.Rate.C82_isolation_partial",
    "Verif.Rate.C82_false_skew"
   ],
   "note": "Proved when the clock does not advance between the two readings inside one call and the table is not full; false without the first assumption (C82_false_skew: a stale record dropped by another client's sweep restarts at a later clock reading than one that is reset)."
  },
  {
   "property": "C83",
   "status": "proved",
   "theorems": [
    "Verif.Rate.C83_remaining_is_promised",
    "Verif.Rate.C83_refused_until_reset",
    "Verif.Rate.C83_served_after_reset"
   ],
   "note": ""
  },
  {
   "property": "C84",
   "status": "proved",
   "theorems": [
    "Verif.Rate.C84_peer_address",
    "Verif.Rate.C84_false_no_address",
    "Verif.Rate.C84_last_hop",
    "Verif.Rate.C84_precedence",
    "Verif.Rate.C84_long_identifier",
    "Verif.Rate.C84_long_identifier_forgotten"
   ],
   "note": "For sessions that expose a non-empty ip(); C84_false_no_address shows the fallback to untrusted headers otherwise."
  },
  {
   "property": "C85",
   "status": "proved",
   "theorems": [
    "Verif.Cors.C85_last_rule_decides",
    "Verif.Cors.C85_exact"
   ],
   "note": ""
  },
  {
   "property": "C86",
   "status": "proved",
   "theorems": [
    "Verif.Cors.C86_grant",
    "Verif.Cors.C86_no_wildcard_credentials",
    "Verif.Cors.C86_reflects_with_credentials",
    "Verif.Cors.C86_vary"
   ],
   "note": ""
  },
  {
   "property": "C87",
   "status": "proved",
   "theorems": [
    "Verif.Cors.C87_who_answers",
    "Verif.Cors.C87_preflight",
    "Verif.Cors.C87_frame",
    "Verif.Cors.C87_expose"
   ],
   "note": ""
  },
  {
   "property": "C88",
   "status": "partial",
   "theorems": [
    "Verif.Srv.C88_connection_window",
    "Verif.Srv.C88_stream_window_partial",
    "Verif.Srv.C88_lowered_window_refuted"
   ],
   "note": "Connection window: full. Stream window: proved for client streams against the largest announced SETTINGS_INITIAL_WINDOW_SIZE. Missing: the current (lowered) window - C88_lowered_window_refuted shows the code violates it, server.h 2112 skips half-closed (remote) streams."
  },
  {
   "property": "C89",
   "status": "proved",
   "theorems": [
    "Verif.Srv.C89_one_goaway",
    "Verif.Srv.C89_last_stream",
    "Verif.Srv.C89_no_request_after"
   ],
   "note": ""
  },
  {
   "property": "C90",
   "status": "proved",
   "theorems": [
    "Verif.Srv.C90_unanswered",
    "Verif.Srv.C90_one_response",
    "Verif.Srv.C90_end_stream",
    "Verif.Srv.C90_frame_size",
    "Verif.Srv.C90_two_responses_refuted"
   ],
   "note": "For streams the application answers once; C90_two_responses_refuted shows that answering twice while the first body waits for window corrupts it (server.h 1085-1093)."
  },
  {
   "property": "C91",
   "status": "proved",
   "theorems": [
    "Verif.Srv.C91_blocked",
    "Verif.Srv.C91_completes",
    "Verif.Srv.C91_answered"
   ],
   "note": "Server protocol only; the window arithmetic is C88's."
  },
  {
   "property": "C93",
   "status": "proved",
   "theorems": [
    "Verif.Srv.C93_limit",
    "Verif.Srv.C93_refused"
   ],
   "note": ""
  },
  {
   "property": "C94",
   "status": "proved",
   "theorems": [
    "Verif.Srv.C94_delivered",
    "Verif.Srv.C94_request",
    "Verif.Srv.C94_once",
    "Verif.Srv.C94_head"
   ],
   "note": "The fields are those the HPACK decoder returned for the header block; that the decoder stays in step with the client is C96 (false of the code)."
  },
  {
   "property": "C92",
   "status": "partial",
   "theorems": [
    "Verif.Srv.C92_connection",
    "Verif.Srv.C92_connection_overrun",
    "Verif.Srv.C92_stream_window",
    "Verif.Srv.C92_stream_overrun",
    "Verif.Srv.C92_stream_within",
    "Verif.Srv.C92_connection_room_partial",
    "Verif.Srv.C92_stall_refuted"
   ],
   "note": "The last clause (room on the connection) holds except after a DATA frame that exceeds the declared or maximal body length: its octets are never given back (server.h 339, 343); C92_stall_refuted shows a connection left without any window."
  },
  {
   "property": "C95",
   "status": "proved",
   "theorems": [
    "Verif.Srv.C95_replies",
    "Verif.Srv.C95_continuation",
    "Verif.Srv.C95_rapid_reset",
    "Verif.Srv.C95_reset_spared",
    "Verif.Srv.C95_ping"
   ],
   "note": "Counters of the server protocol; the framer's own limits are C23-C27."
  },
  {
   "property": "C96",
   "status": "partial",
   "theorems": [
    "Verif.Srv.C96_in_step_partial",
    "Verif.Srv.C96_in_step_refuted"
   ],
   "note": "C96_in_step_partial: the decoder has seen every completed block as long as no HEADERS was refused or came for a closed stream; those blocks are skipped (server.h 428, 432, 449, 476, 482), and C96_in_step_refuted shows a later request decoded wrongly because of it."
  },
  {
   "property": "C97",
   "status": "partial",
   "theorems": [
    "Verif.Srv.C97_throw_partial",
    "Verif.Srv.C97_throw_data_refuted"
   ],
   "note": "Proved for requests that end with HEADERS. For requests that end with DATA the stream is reset but goes on counting (server.h 376): C97_throw_data_refuted."
  },
  {
   "property": "C98",
   "status": "partial",
   "theorems": [
    "Verif.Srv.C98_goaway_partial",
    "Verif.Srv.C98_goaway_refuted"
   ],
   "note": "Proved for requests up to the number named in GOAWAY; that number is about streams of the server, and the server drops requests of the client above it (server.h 862): C98_goaway_refuted."
  },
  {
   "property": "C99",
   "status": "partial",
   "theorems": [
    "Verif.Srv.C99_push_allowed",
    "Verif.Srv.C99_push_promise",
    "Verif.Srv.C99_push_answer_refuted"
   ],
   "note": "Permission, parent and number are proved; the promised request cannot be answered (server.h 1081): C99_push_answer_refuted."
  },
  {
   "property": "C100",
   "status": "partial",
   "theorems": [
    "Verif.Auth.C100_admitted_exact",
    "Verif.Auth.C100_anonymous_exact",
    "Verif.Auth.C100_refused_exact",
    "Verif.Auth.C100_roles_partial",
    "Verif.Auth.C100_roles_refuted"
   ],
   "note": "The three exact theorems are complete; C100_roles_partial: with authentication required nobody passes without the required roles. With optional authentication and required roles a request without a token passes (auth.h 137-142): C100_roles_refuted."
  },
  {
   "property": "C101",
   "status": "partial",
   "theorems": [
    "Verif.Auth.C101_role_gate_partial",
    "Verif.Auth.C101_no_anonymous",
    "Verif.Auth.C101_empty_key",
    "Verif.Auth.C101_refuted"
   ],
   "note": "Proved when a user was established before. Otherwise the gate falls back on the default options, whose HMAC key is empty, so a token signed with the empty key passes with any roles (auth.h 450): C101_empty_key, C101_refuted."
  },
  {
   "property": "C102",
   "status": "partial",
   "theorems": [
    "Verif.Auth.C102_readback_exact",
    "Verif.Auth.C102_round_trip_partial",
    "Verif.Auth.C102_numeric_id_refused",
    "Verif.Auth.C102_quoted_id_confused",
    "Verif.Auth.C102_refuted"
   ],
   "note": "C102_readback_exact says what comes back for every user. It is the same user if identifier and name are not JSON texts; string claims are parsed as JSON (manager.cpp 330), so a numeric identifier is lost and a quoted one becomes another user's: C102_refuted. The JWT library is a parameter that returns the claims put in."
  },
  {
   "property": "C103",
   "status": "proved",
   "theorems": [
    "Verif.Auth.C103_header_exact",
    "Verif.Auth.C103_jwt_header_exact"
   ],
   "note": "For schemes that are not empty and do not start with a blank; AuthMiddleware accepts any blank after the scheme, JwtMiddleware wants a space."
  },
  {
   "property": "C104",
   "status": "partial",
   "theorems": [
    "Verif.Auth.C104_numeral_exact",
    "Verif.Auth.C104_claims_partial",
    "Verif.Auth.C104_not_claims",
    "Verif.Auth.C104_nbf_wraps",
    "Verif.Auth.C104_refuted"
   ],
   "note": "Exact for times below 2^63; an nbf from 2^63 on wraps and is accepted (manager.cpp 70, the unsigned branch is dead): C104_refuted."
  },
  {
   "property": "C105",
   "status": "proved",
   "theorems": [
    "Verif.Auth.C105_algorithm_names",
    "Verif.Auth.C105_manager_exact",
    "Verif.Auth.C105_factory",
    "Verif.Auth.C105_jwt_exact",
    "Verif.Auth.C105_jwt_refused"
   ],
   "note": "qb::jwt::verify is a parameter: what it accepts under given options is its business."
  },
  {
   "property": "C106",
   "status": "partial",
   "theorems": [
    "Verif.Auth.C106_identity_partial",
    "Verif.Auth.C106_numeric_subject",
    "Verif.Auth.C106_refuted"
   ],
   "note": "Proved for subjects and names that do not read as numbers or truth values; others are converted (jwt.h 409-447) and then ignored by the auth middleware (auth.h 323): C106_refuted."
  },
  {
   "property": "C107",
   "status": "proved",
   "theorems": [
    "Verif.Hdr.C107_attributes_exact",
    "Verif.Hdr.C107_unambiguous",
    "Verif.Hdr.C107_no_control",
    "Verif.Hdr.C107_first_counts"
   ],
   "note": "For values up to 64 KiB (longer ones throw)."
  },
  {
   "property": "C108",
   "status": "proved",
   "theorems": [
    "Verif.Hdr.C108_content_type",
    "Verif.Hdr.C108_total"
   ],
   "note": ""
  },
  {
   "property": "C109",
   "status": "partial",
   "theorems": [
    "Verif.Hdr.C109_quality",
    "Verif.Hdr.C109_listed",
    "Verif.Hdr.C109_chosen",
    "Verif.Hdr.C109_acceptable",
    "Verif.Hdr.C109_bare_point_refuted"
   ],
   "note": "Complete for the selection; qualities are read exactly as 0, 1, 0.d-0.ddd, 1.0-1.000. RFC 9110 also allows a bare point: 1. is read as a refusal (compression.h 397): C109_bare_point_refuted."
  },
  {
   "property": "C110",
   "status": "partial",
   "theorems": [
    "Verif.Hdr.C110_first_usable",
    "Verif.Hdr.C110_sound",
    "Verif.Hdr.C110_late_refusal_refuted",
    "Verif.Hdr.C110_order_refuted"
   ],
   "note": "Exact (C110_first_usable) and sound (C110_sound). A refusal behind * is ignored and qualities are not compared (headers.cpp 379-421): C110_late_refusal_refuted, C110_order_refuted."
  },
  {
   "property": "C111",
   "status": "partial",
   "theorems": [
    "Verif.Hdr.C111_compress",
    "Verif.Hdr.C111_faithful",
    "Verif.Hdr.C111_partial_content_refuted",
    "Verif.Hdr.C111_cut_refuted"
   ],
   "note": "C111_faithful is complete for encodings that are single names. 206 responses and responses with a strong ETag are compressed too (compression.h 323): C111_partial_content_refuted; Body::compress alone may cut its output (body.cpp 471): C111_cut_refuted. The compression library is a parameter with a stated contract."
  },
  {
   "property": "C112",
   "status": "partial",
   "theorems": [
    "Verif.Hdr.C112_bounded",
    "Verif.Hdr.C112_allocation",
    "Verif.Hdr.C112_whole",
    "Verif.Hdr.C112_single",
    "Verif.Hdr.C112_several",
    "Verif.Hdr.C112_request",
    "Verif.Hdr.C112_refused",
    "Verif.Hdr.C112_truncated_refuted",
    "Verif.Hdr.C112_unknown_coding_refuted",
    "Verif.Hdr.C112_identity_refuted"
   ],
   "note": "Bounds, whole content of complete streams, headers and refusals are proved. A stream that is cut off is taken for the whole (body.cpp 549): C112_truncated_refuted; codings the library does not know are ignored (body.cpp 514): C112_unknown_coding_refuted; identity is refused: C112_identity_refuted."
  },
  {
   "property": "C113",
   "status": "proved",
   "theorems": [
    "Verif.Multi.C113_read",
    "Verif.Multi.C113_truncated",
    "Verif.Multi.C113_hidden_close",
    "Verif.Multi.C113_preamble"
   ],
   "note": "For every body of the grammar Message. Besides, cut-off bodies are accepted (C113_truncated: only hasError is asked, body.cpp 768), a delimiter followed by CR and not LF hides the closing delimiter (C113_hidden_close: PART_BOUNDARY is not reset, multipart.cpp 166-176), a preamble is refused (C113_preamble)."
  },
  {
   "property": "C114",
   "status": "proved",
   "theorems": [
    "Verif.Multi.C114_written_iff",
    "Verif.Multi.C114_content_length",
    "Verif.Multi.C114_round_trip",
    "Verif.Multi.C114_no_parts",
    "Verif.Multi.C114_leading_space",
    "Verif.Multi.C114_delimiter_in_data"
   ],
   "note": "With the exceptions named in the property, each shown to be needed: C114_no_parts, C114_leading_space, C114_delimiter_in_data."
  },
  {
   "property": "C115",
   "status": "proved",
   "theorems": [
    "Verif.Multi.C115_limits"
   ],
   "note": ""
  },
  {
   "property": "C116",
   "status": "partial",
   "theorems": [
    "Verif.Multi.C116_reference",
    "Verif.Multi.C116_error",
    "Verif.Multi.C116_cuts_partial",
    "Verif.Multi.C116_refuted"
   ],
   "note": "Refuted as it stands (C116_refuted: a CRLF after the closing delimiter in the same piece); proved for bodies without octets after the closing delimiter and without a header line that has no colon (C116_reference, C116_error, C116_cuts_partial)."
  },
  {
   "property": "C117",
   "status": "proved",
   "theorems": [
    "Verif.Multi.C117_in_bounds",
    "Verif.Multi.C117_no_exception_partial",
    "Verif.Multi.C117_refuted",
    "Verif.Multi.C117_phantom_data",
    "Verif.Multi.C117_reader"
   ],
   "note": "Memory safety holds for all inputs. A stronger claim, that feed never throws, is refuted by a header line without a colon (C117_refuted), which also puts octets into the data that are not in the body (C117_phantom_data)."
  },
  {
   "property": "C118",
   "status": "proved",
   "theorems": [
    "Verif.Multi.C118_found_iff",
    "Verif.Multi.C118_throws_iff",
    "Verif.Multi.C118_generated"
   ],
   "note": ""
  },
  {
   "property": "C119",
   "status": "proved",
   "theorems": [
    "Verif.Multi.C119_read",
    "Verif.Multi.C119_every_body",
    "Verif.Multi.C119_round_trip"
   ],
   "note": "qb::io::uri::encode/decode are parameters with the stated contract; they are not in this repository."
  },
  {
   "property": "C120",
   "status": "proved",
   "theorems": [
    "Verif.Route.C120_dispatch",
    "Verif.Route.C120_route_runs",
    "Verif.Route.C120_declare_effect",
    "Verif.Route.C120_declare_controller",
    "Verif.Route.C120_handle_local"
   ],
   "note": "Specification Dispatch in Route/Spec.lean; path parameters of 405 answers are not specified."
  },
  {
   "property": "C121",
   "status": "proved",
   "theorems": [
    "Verif.Route.C121_not_allowed_iff",
    "Verif.Route.C121_allow_exact",
    "Verif.Route.C121_not_found_iff"
   ],
   "note": ""
  },
  {
   "property": "C122",
   "status": "proved",
   "theorems": [
    "Verif.Route.C122_not_found_chain",
    "Verif.Route.C122_set_not_found"
   ],
   "note": ""
  },
  {
   "property": "C123",
   "status": "proved",
   "theorems": [
    "Verif.Route.C123_compile_iff",
    "Verif.Route.C123_recompile"
   ],
   "note": ""
  },
  {
   "property": "C124",
   "status": "partial",
   "theorems": [
    "Verif.Route.C124_history_partial",
    "Verif.Route.C124_compile_restores",
    "Verif.Route.C124_false_late_handle"
   ],
   "note": "Proved when group and controller handles are used only between a declaration on the router and the next compile or request (C124_history_partial), and after any successful compile (C124_compile_restores). False in general: a route added through a handle after compiling stays invisible (C124_false_late_handle, router.h 607-613: only Router methods reset _is_compiled)."
  },
  {
   "property": "C125",
   "status": "partial",
   "theorems": [
    "Verif.Route.C125_refused_throws_partial",
    "Verif.Route.C125_clear_restores",
    "Verif.Route.C125_false_half_table"
   ],
   "note": "Proved for a router that is not marked compiled (C125_refused_throws_partial). False in general: if compile() throws on a router compiled before, _is_compiled stays true and requests are served from the half-built table (C125_false_half_table, router.h 598-604)."
  },
  {
   "property": "C126",
   "status": "proved",
   "theorems": [
    "Verif.Cli.C126_exactly_once",
    "Verif.Cli.C126_loss_completes",
    "Verif.Cli.C126_loss_example",
    "Verif.Cli.C126_example"
   ],
   "note": ""
  },
  {
   "property": "C127",
   "status": "proved",
   "theorems": [
    "Verif.Cli.C127_disconnect_completes_all",
    "Verif.Cli.C127_nothing_sent",
    "Verif.Cli.C127_example"
   ],
   "note": ""
  },
  {
   "property": "C128",
   "status": "proved",
   "theorems": [
    "Verif.Cli.C128_sent_on_closing",
    "Verif.Cli.C128_fifo",
    "Verif.Cli.C128_one_at_a_time",
    "Verif.Cli.C128_response_to_last"
   ],
   "note": ""
  },
  {
   "property": "C129",
   "status": "proved",
   "theorems": [
    "Verif.Cli.C129_stats",
    "Verif.Cli.C129_limit",
    "Verif.Cli.C129_admission",
    "Verif.Cli.C129_example"
   ],
   "note": ""
  },
  {
   "property": "C130",
   "status": "proved",
   "theorems": [
    "Verif.Cli.C130_connect_callbacks",
    "Verif.Cli.C130_outcome",
    "Verif.Cli.C130_example",
    "Verif.Cli.C130_disconnect_tells_nothing"
   ],
   "note": ""
  },
  {
   "property": "C131",
   "status": "partial",
   "theorems": [
    "Verif.Cli.C131_not_forgotten_partial",
    "Verif.Cli.C131_example",
    "Verif.Cli.C131_stuck_forever",
    "Verif.Cli.C131_full_is_false"
   ],
   "note": "Proved for users who do not call disconnect from callbacks nor the client from connect callbacks (C131_not_forgotten_partial). False in general: disconnect() then push_request() inside a response callback leaves the client stuck until the next disconnect (C131_full_is_false, C131_stuck_forever)."
  },
  {
   "property": "C132",
   "status": "partial",
   "theorems": [
    "Verif.Cli.C132_disconnect_returns_partial",
    "Verif.Cli.C132_retry_never_ends",
    "Verif.Cli.C132_example"
   ],
   "note": "Proved for callbacks that do not call the client back (C132_disconnect_returns_partial). False in general: a callback that pushes its request again on failure keeps disconnect() running for ever (C132_retry_never_ends)."
  },
  {
   "property": "C133",
   "status": "proved",
   "theorems": [
    "Verif.Cli.C133_batch",
    "Verif.Cli.C133_numbers",
    "Verif.Cli.C133_example"
   ],
   "note": ""
  },
  {
   "property": "C134",
   "status": "partial",
   "theorems": [
    "Verif.Cli.C134_h3_truthful",
    "Verif.Cli.C134_h2_partial",
    "Verif.Cli.C134_h2_reports_success"
   ],
   "note": "Proved for HTTP/3 (C134_h3_truthful). False for HTTP/2: unanswered requests are reported with the default Response, status 200 (C134_h2_partial, C134_h2_reports_success; 2/client.cpp 584-588 tests for status 0)."
  },
  {
   "property": "C135",
   "status": "proved",
   "theorems": [
    "Verif.Cli.C135_same_iff",
    "Verif.Cli.C135_port_unique",
    "Verif.Cli.C135_equivalence",
    "Verif.Cli.C135_default_port",
    "Verif.Cli.C135_example"
   ],
   "note": ""
  },
  {
   "property": "C136",
   "status": "proved",
   "theorems": [
    "Verif.Cli.C136_accepted",
    "Verif.Cli.C136_not_refused",
    "Verif.Cli.C136_relative_accepted",
    "Verif.Cli.C136_headers",
    "Verif.Cli.C136_host_header",
    "Verif.Cli.C136_example"
   ],
   "note": "The URI parser is any function; C136_relative_accepted assumes it reads back the scheme, host and port it was given."
  },
  {
   "property": "C137",
   "status": "proved",
   "theorems": [
    "Verif.Cli2.C137_exactly_once",
    "Verif.Cli2.C137_sent_once",
    "Verif.Cli2.C137_response",
    "Verif.Cli2.C137_example"
   ],
   "note": ""
  },
  {
   "property": "C138",
   "status": "partial",
   "theorems": [
    "Verif.Cli2.C138_limit_partial",
    "Verif.Cli2.C138_limit_is_false",
    "Verif.Cli2.C138_streams",
    "Verif.Cli2.C138_admission",
    "Verif.Cli2.C138_example"
   ],
   "note": "Proved: the stream limit and admission for all histories, the limit of pending requests for histories in which no request times out (C138_limit_partial). False in general: requests kept by the timeout handler are not counted while its callbacks run (C138_limit_is_false)."
  },
  {
   "property": "C139",
   "status": "proved",
   "theorems": [
    "Verif.Cli2.C139_stats",
    "Verif.Cli2.C139_within_callbacks",
    "Verif.Cli2.C139_example"
   ],
   "note": ""
  },
  {
   "property": "C140",
   "status": "proved",
   "theorems": [
    "Verif.Cli2.C140_connect_callbacks",
    "Verif.Cli2.C140_outcome",
    "Verif.Cli2.C140_lost",
    "Verif.Cli2.C140_example",
    "Verif.Cli2.C140_disconnect_does_not_cancel",
    "Verif.Cli2.C140_already_open"
   ],
   "note": ""
  },
  {
   "property": "C141",
   "status": "proved",
   "theorems": [
    "Verif.Cli2.C141_no_send",
    "Verif.Cli2.C141_closed_when_drained",
    "Verif.Cli2.C141_failed_requests",
    "Verif.Cli2.C141_queue_survives",
    "Verif.Cli2.C141_example"
   ],
   "note": ""
  },
  {
   "property": "C142",
   "status": "partial",
   "theorems": [
    "Verif.Cli2.C142_reasons_partial",
    "Verif.Cli2.C142_none_on_a_dead_wire",
    "Verif.Cli2.C142_lost_example",
    "Verif.Cli2.C142_expired",
    "Verif.Cli2.C142_not_forgotten_partial",
    "Verif.Cli2.C142_example",
    "Verif.Cli2.C142_full_is_false"
   ],
   "note": "Proved for histories without failed streams and expired requests (C142_not_forgotten_partial). False in general: fail_request never sends the requests that wait (C142_full_is_false). Also proved in full: no request is left on the wire of a connection that is gone (C142_none_on_a_dead_wire), expired requests on the wire get 408 (C142_expired)."
  },
  {
   "property": "C143",
   "status": "partial",
   "theorems": [
    "Verif.Cli2.C143_no_crash_partial",
    "Verif.Cli2.C143_example",
    "Verif.Cli2.C143_full_is_false",
    "Verif.Cli2.C143_retry_crashes"
   ],
   "note": "Proved when disconnect() is not called from within callbacks and no request makes the HPACK encoder end the connection (C143_no_crash_partial). False in general (C143_full_is_false, C143_retry_crashes)."
  },
  {
   "property": "C144",
   "status": "proved",
   "theorems": [
    "Verif.Valid.C144_meaning_exists",
    "Verif.Valid.C144_meaning_unique",
    "Verif.Valid.C144_exact",
    "Verif.Valid.C144_example",
    "Verif.Valid.C144_too_deep",
    "Verif.Valid.C144_exclusive_number_throws",
    "Verif.Valid.C144_large_integers",
    "Verif.Valid.C144_enum_wraps"
   ],
   "note": ""
  },
  {
   "property": "C145",
   "status": "proved",
   "theorems": [
    "Verif.Valid.C145_verdict"
   ],
   "note": ""
  },
  {
   "property": "C146",
   "status": "proved",
   "theorems": [
    "Verif.Valid.C146_round_trip",
    "Verif.Valid.C146_no_markup",
    "Verif.Valid.C146_references",
    "Verif.Valid.C146_example"
   ],
   "note": ""
  },
  {
   "property": "C147",
   "status": "proved",
   "theorems": [
    "Verif.Valid.C147_trim",
    "Verif.Valid.C147_normalize",
    "Verif.Valid.C147_alphanumeric",
    "Verif.Valid.C147_case",
    "Verif.Valid.C147_example"
   ],
   "note": ""
  },
  {
   "property": "C148",
   "status": "partial",
   "theorems": [
    "Verif.Valid.C148_sublist",
    "Verif.Valid.C148_text",
    "Verif.Valid.C148_tag",
    "Verif.Valid.C148_unterminated",
    "Verif.Valid.C148_comment",
    "Verif.Valid.C148_no_tag_partial",
    "Verif.Valid.C148_full_is_false",
    "Verif.Valid.C148_example"
   ],
   "note": "Everything proved but the last clause, which is proved for texts without << (C148_no_tag_partial) and false in general (C148_full_is_false): the second < is taken for text."
  },
  {
   "property": "C149",
   "status": "partial",
   "theorems": [
    "Verif.Valid.C149_literal",
    "Verif.Valid.C149_like_partial",
    "Verif.Valid.C149_full_is_false",
    "Verif.Valid.C149_example"
   ],
   "note": "The literal is complete for every text (C149_literal); the pattern is exact for texts without a backslash (C149_like_partial); false in general (C149_full_is_false): the backslash is not escaped."
  },
  {
   "property": "C150",
   "status": "proved",
   "theorems": [
    "Verif.Valid.C150_exact",
    "Verif.Valid.C150_others",
    "Verif.Valid.C150_rule",
    "Verif.Valid.C150_path",
    "Verif.Valid.C150_example"
   ],
   "note": ""
  },
  {
   "property": "C151",
   "status": "proved",
   "theorems": [
    "Verif.Valid.C151_read",
    "Verif.Valid.C151_single",
    "Verif.Valid.C151_value",
    "Verif.Valid.C151_all",
    "Verif.Valid.C151_builtin",
    "Verif.Valid.C151_silent_rule",
    "Verif.Valid.C151_example"
   ],
   "note": ""
  },
  {
   "property": "C152",
   "status": "proved",
   "theorems": [
    "Verif.Valid.C152_budget",
    "Verif.Valid.C152_add",
    "Verif.Valid.C152_history",
    "Verif.Valid.C152_order",
    "Verif.Valid.C152_throws",
    "Verif.Valid.C152_cuts_characters",
    "Verif.Valid.C152_example"
   ],
   "note": ""
  },
  {
   "property": "C153",
   "status": "proved",
   "theorems": [
    "Verif.Valid.C153_verdict",
    "Verif.Valid.C153_exact",
    "Verif.Valid.C153_middleware",
    "Verif.Valid.C153_example"
   ],
   "note": ""
  },
  {
   "property": "C154",
   "status": "proved",
   "theorems": [
    "Verif.H3.C154_request_delivered",
    "Verif.H3.C154_request_content",
    "Verif.H3.C154_body_any_order"
   ],
   "note": ""
  },
  {
   "property": "C155",
   "status": "partial",
   "theorems": [
    "Verif.H3.C155_response_delivered",
    "Verif.H3.C155_response_content_partial",
    "Verif.H3.C155_interim_fields_leak_partial"
   ],
   "note": "Acceptance is exact (C155_response_delivered); the content is that of the final response plus the fields of interim responses before it (C155_response_content_partial), and the property is false in general (C155_interim_fields_leak_partial)."
  },
  {
   "property": "C156",
   "status": "partial",
   "theorems": [
    "Verif.H3.C156_request_sent",
    "Verif.H3.C156_response_sent",
    "Verif.H3.C156_request_wellformed",
    "Verif.H3.C156_dirty_path_partial",
    "Verif.H3.C156_late_refusal_partial"
   ],
   "note": "What is sent is exact in both directions (C156_request_sent, C156_response_sent, C156_request_wellformed); two clauses are false: pseudo header values are not validated (C156_dirty_path_partial), and a message refused for its trailers was already handed over (C156_late_refusal_partial)."
  },
  {
   "property": "C157",
   "status": "proved",
   "theorems": [
    "Verif.H3.C157_request_arrives",
    "Verif.H3.C157_response_arrives"
   ],
   "note": ""
  },
  {
   "property": "C158",
   "status": "proved",
   "theorems": [
    "Verif.H3.C158_one_body",
    "Verif.H3.C158_buffer_stays"
   ],
   "note": ""
  },
  {
   "property": "C159",
   "status": "partial",
   "theorems": [
    "Verif.H3.C159_bytes_once",
    "Verif.H3.C159_end_once",
    "Verif.H3.C159_no_use_after_death",
    "Verif.H3.C159_all_told_partial",
    "Verif.H3.C159_error_forgets_partial"
   ],
   "note": "Everything proved but the last clause, which holds as long as nghttp3 reports no error (C159_all_told_partial) and is false otherwise (C159_error_forgets_partial)."
  },
  {
   "property": "C160",
   "status": "partial",
   "theorems": [
    "Verif.Cli3.C160_at_most_once",
    "Verif.Cli3.C160_exactly_once_partial",
    "Verif.Cli3.C160_lost_partial"
   ],
   "note": "In all histories none is completed twice and the accounts are exact up to destroyed requests (C160_at_most_once); none is destroyed in polite histories (C160_exactly_once_partial); false in general (C160_lost_partial)."
  },
  {
   "property": "C161",
   "status": "partial",
   "theorems": [
    "Verif.Cli3.C161_own_response_partial",
    "Verif.Cli3.C161_mix_up_partial",
    "Verif.Cli3.C161_streams_unique"
   ],
   "note": "Streams are unique in all histories (C161_streams_unique); own response in polite histories (C161_own_response_partial); false in general (C161_mix_up_partial)."
  },
  {
   "property": "C162",
   "status": "partial",
   "theorems": [
    "Verif.Cli3.C162_close_while_reading",
    "Verif.Cli3.C162_not_freed_while_reading_partial",
    "Verif.Cli3.C162_disconnect_in_callback_partial",
    "Verif.Cli3.C162_no_crash_partial",
    "Verif.Cli3.C162_crash_partial",
    "Verif.Cli3.C162_crash_in_send_partial"
   ],
   "note": "No destruction during a read unless disconnect is called in one (C162_not_freed_while_reading_partial); no crash in polite histories (C162_no_crash_partial); false in general (three counterexamples)."
  },
  {
   "property": "C163",
   "status": "partial",
   "theorems": [
    "Verif.Cli3.C163_connected_at_once",
    "Verif.Cli3.C163_timer_idle",
    "Verif.Cli3.C163_connect_once",
    "Verif.Cli3.C163_waits_for_attempt_partial",
    "Verif.Cli3.C163_forgotten_partial",
    "Verif.Cli3.C163_stale_timer_partial",
    "Verif.Cli3.C163_told_wrong_partial"
   ],
   "note": "First clause in all histories (C163_connect_once); second clause without disconnect (C163_waits_for_attempt_partial); the others are false (C163_forgotten_partial, C163_stale_timer_partial, C163_told_wrong_partial)."
  },
  {
   "property": "C164",
   "status": "proved",
   "theorems": [
    "Verif.Cli3.C164_statistics"
   ],
   "note": ""
  },
  {
   "property": "C165",
   "status": "proved",
   "theorems": [
    "Verif.Clp.C165_send_windows"
   ],
   "note": ""
  },
  {
   "property": "C166",
   "status": "proved",
   "theorems": [
    "Verif.Clp.C166_opening"
   ],
   "note": ""
  },
  {
   "property": "C167",
   "status": "proved",
   "theorems": [
    "Verif.Clp.C167_head_ends",
    "Verif.Clp.C167_data_ends",
    "Verif.Clp.C167_one_outcome",
    "Verif.Clp.C167_cut_reported",
    "Verif.Clp.C167_reset_reported"
   ],
   "note": ""
  },
  {
   "property": "C168",
   "status": "proved",
   "theorems": [
    "Verif.Clp.C168_response"
   ],
   "note": ""
  },
  {
   "property": "C169",
   "status": "partial",
   "theorems": [
    "Verif.Clp.C169_body_partial",
    "Verif.Clp.C169_ends"
   ],
   "note": "Order, prefix and END_STREAM on DATA and HEADERS in all histories; DATA can follow trailers that the application sends early, and announced trailers may never be sent (examples in Clp/TheoremsExamples)."
  },
  {
   "property": "C170",
   "status": "proved",
   "theorems": [
    "Verif.Clp.C170_grants",
    "Verif.Clp.C170_honoured"
   ],
   "note": ""
  },
  {
   "property": "C171",
   "status": "proved",
   "theorems": [
    "Verif.Clp.C171_replies_bounded"
   ],
   "note": ""
  },
  {
   "property": "C172",
   "status": "partial",
   "theorems": [
    "Verif.Clp.C172_quiet_after_goaway_partial"
   ],
   "note": "Everything but the acknowledgement of SETTINGS and trailers of the application, which can follow (examples in Clp/TheoremsExamples)."
  },
  {
   "property": "C173",
   "status": "proved",
   "theorems": [
    "Verif.Clp.C173_fields",
    "Verif.Clp.C173_clean",
    "Verif.Clp.C173_server_takes",
    "Verif.Clp.C173_authority"
   ],
   "note": ""
  },
  {
   "property": "C174",
   "status": "partial",
   "theorems": [
    "Verif.Clp.C174_reason_partial",
    "Verif.Clp.C174_end_before_head_partial",
    "Verif.Clp.C174_no_trailers_partial",
    "Verif.Clp.C174_disowned_partial"
   ],
   "note": "A request without an outcome was not reset, or was ended or disowned by the server (C174_reason_partial); ends are reported under the conditions of C167; false in general (three counterexamples)."
  },
  {
   "property": "C175",
   "status": "proved",
   "theorems": [
    "Verif.Wsc.C175_in_order",
    "Verif.Wsc.C175_none_lost",
    "Verif.Wsc.C175_waiting",
    "Verif.Wsc.C175_next"
   ],
   "note": ""
  },
  {
   "property": "C176",
   "status": "proved",
   "theorems": [
    "Verif.Wsc.C176_once",
    "Verif.Wsc.C176_suits",
    "Verif.Wsc.C176_true",
    "Verif.Wsc.C176_released"
   ],
   "note": ""
  },
  {
   "property": "C177",
   "status": "proved",
   "theorems": [
    "Verif.Wsc.C177_bounded",
    "Verif.Wsc.C177_limit"
   ],
   "note": ""
  },
  {
   "property": "C178",
   "status": "partial",
   "theorems": [
    "Verif.Wsc.C178_echo_partial",
    "Verif.Wsc.C178_twice_partial",
    "Verif.Wsc.C178_stuck_partial",
    "Verif.Wsc.C178_no_echo_partial"
   ],
   "note": "The answer to the peer's Close for clients, and for sessions without violations and failed closes; false in general (three counterexamples)."
  },
  {
   "property": "C179",
   "status": "partial",
   "theorems": [
    "Verif.Wsc.C179_second",
    "Verif.Wsc.C179_cancelled_partial"
   ],
   "note": "The second receiver throws and changes nothing; a cancelled receiver swallows the next frame (counterexample)."
  },
  {
   "property": "C180",
   "status": "proved",
   "theorems": [
    "Verif.Wsh.C180_accepts",
    "Verif.Wsh.C180_response"
   ],
   "note": ""
  },
  {
   "property": "C181",
   "status": "proved",
   "theorems": [
    "Verif.Wsh.C181_takes",
    "Verif.Wsh.C181_offered",
    "Verif.Wsh.C181_offer",
    "Verif.Wsh.C181_pair"
   ],
   "note": ""
  },
  {
   "property": "C182",
   "status": "partial",
   "theorems": [
    "Verif.Wsh.C182_accepted",
    "Verif.Wsh.C182_refused",
    "Verif.Wsh.C182_refusal",
    "Verif.Wsh.C182_once",
    "Verif.Wsh.C182_refused_ok_partial"
   ],
   "note": "All but the status of a refusal by a hook that sets none: that is 200 (counterexample)."
  },
  {
   "property": "C183",
   "status": "proved",
   "theorems": [
    "Verif.Wsh.C183_host"
   ],
   "note": ""
  },
  {
   "property": "C184",
   "status": "partial",
   "theorems": [
    "Verif.Sv3.C184_live_partial",
    "Verif.Sv3.C184_reading",
    "Verif.Sv3.C184_idle",
    "Verif.Sv3.C184_cause",
    "Verif.Sv3.C184_reaped",
    "Verif.Sv3.C184_single",
    "Verif.Sv3.C184_shutdown_partial"
   ],
   "note": "All but the use by graceful_shutdown after the shutdown notice, which can come after the destruction (counterexample)."
  },
  {
   "property": "C185",
   "status": "partial",
   "theorems": [
    "Verif.Sv3.C185_once",
    "Verif.Sv3.C185_owner",
    "Verif.Sv3.C185_accounted_partial",
    "Verif.Sv3.C185_closed",
    "Verif.Sv3.C185_settled",
    "Verif.Sv3.C185_cause",
    "Verif.Sv3.C185_orphan_partial"
   ],
   "note": "Under one request per stream; a context whose connection closes while it is being routed is orphaned (counterexample)."
  },
  {
   "property": "C186",
   "status": "partial",
   "theorems": [
    "Verif.Sv3.C186_only",
    "Verif.Sv3.C186_finish_partial",
    "Verif.Sv3.C186_stuck_partial",
    "Verif.Sv3.C186_cut_partial"
   ],
   "note": "Closing is proved sound, and live at the callbacks that check; not when the last request's stream is closed, and a request being routed is not counted (counterexamples)."
  },
  {
   "property": "C187",
   "status": "proved",
   "theorems": [
    "Verif.Sv3.C187_head",
    "Verif.Sv3.C187_length",
    "Verif.Sv3.C187_submit",
    "Verif.Sv3.C187_revive",
    "Verif.Sv3.C187_asked",
    "Verif.Sv3.C187_kept"
   ],
   "note": ""
  },
  {
   "property": "C188",
   "status": "proved",
   "theorems": [
    "Verif.Adp.C188_answered",
    "Verif.Adp.C188_one_waited_for",
    "Verif.Adp.C188_scopes",
    "Verif.Adp.C188_at_most_once"
   ],
   "note": ""
  },
  {
   "property": "C189",
   "status": "proved",
   "theorems": [
    "Verif.Adp.C189_signalled",
    "Verif.Adp.C189_returns",
    "Verif.Adp.C189_next",
    "Verif.Adp.C189_completes",
    "Verif.Adp.C189_throws",
    "Verif.Adp.C189_next_once",
    "Verif.Adp.C189_throw_after_next_refuted"
   ],
   "note": ""
  },
  {
   "property": "C190",
   "status": "proved",
   "theorems": [
    "Verif.Frm.C190_round_trip",
    "Verif.Frm.C190_empty_name_lost",
    "Verif.Frm.C190_built",
    "Verif.Frm.C190_added",
    "Verif.Frm.C190_injective"
   ],
   "note": ""
  },
  {
   "property": "C191",
   "status": "proved",
   "theorems": [
    "Verif.Frm.C191_read",
    "Verif.Frm.C191_meaning"
   ],
   "note": ""
  },
  {
   "property": "C192",
   "status": "proved",
   "theorems": [
    "Verif.Cap.C192_verdict",
    "Verif.Cap.C192_passes",
    "Verif.Cap.C192_refuses",
    "Verif.Cap.C192_refuses_forever",
    "Verif.Cap.C192_refuses_forever_deferred",
    "Verif.Cap.C192_late",
    "Verif.Cap.C192_only",
    "Verif.Cap.C192_action_ignored"
   ],
   "note": ""
  },
  {
   "property": "C193",
   "status": "proved",
   "theorems": [
    "Verif.Cap.C193_token_sent",
    "Verif.Cap.C193_no_token",
    "Verif.Cap.C193_no_injection",
    "Verif.Cap.C193_injective"
   ],
   "note": ""
  },
  {
   "property": "C194",
   "status": "proved",
   "theorems": [
    "Verif.Sec.C194_hook_sets",
    "Verif.Sec.C194_hook_only",
    "Verif.Sec.C194_one_value",
    "Verif.Sec.C194_sent"
   ],
   "note": ""
  },
  {
   "property": "C195",
   "status": "proved",
   "theorems": [
    "Verif.Sec.C195_nonce_sent",
    "Verif.Sec.C195_false_policy_without_nonce"
   ],
   "note": ""
  },
  {
   "property": "C196",
   "status": "proved",
   "theorems": [
    "Verif.Bim.C196_in_charge",
    "Verif.Bim.C196_generic",
    "Verif.Bim.C196_called"
   ],
   "note": "All sequences of registrations; handlers are arbitrary actions on the context."
  },
  {
   "property": "C197",
   "status": "proved",
   "theorems": [
    "Verif.Bim.C197_ended",
    "Verif.Bim.C197_status"
   ],
   "note": "C197_ended for every handler that does not destroy the context; C197_status for handlers that set statuses."
  },
  {
   "property": "C198",
   "status": "proved",
   "theorems": [
    "Verif.Bim.C198_transform",
    "Verif.Bim.C198_cond_selects",
    "Verif.Bim.C198_cond_throws",
    "Verif.Bim.C198_false_throw_after_continue"
   ],
   "note": "A child that throws after it completed is outside the claim: C198_false_throw_after_continue."
  },
  {
   "property": "C199",
   "status": "proved",
   "theorems": [
    "Verif.Bim.C199_requests_logged",
    "Verif.Bim.C199_responses_logged",
    "Verif.Bim.C199_timed",
    "Verif.Bim.C199_false_same_name"
   ],
   "note": "With two timers of one name in between: C199_false_same_name."
  },
  {
   "property": "C200",
   "status": "proved",
   "theorems": [
    "Verif.Se2.C200_kept",
    "Verif.Se2.C200_closed",
    "Verif.Se2.C200_hook_once",
    "Verif.Se2.C200_hook_reason"
   ],
   "note": "For all executions in which no dangling iterator was used (C201); the event loop is not re-entered."
  },
  {
   "property": "C201",
   "status": "partial",
   "theorems": [
    "Verif.Se2.C201_iterators_partial",
    "Verif.Se2.C201_false_disconnect"
   ],
   "note": "FALSE of the code in general (C201_false_disconnect); C201_iterators_partial proves it for all executions in which no stream error is reported for a stream while its own context is being settled."
  },
  {
   "property": "C202",
   "status": "proved",
   "theorems": [
    "Verif.Se2.C202_send",
    "Verif.Se2.C202_dropped"
   ],
   "note": "All responses."
  }
 ]
}