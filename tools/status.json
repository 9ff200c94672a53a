{
 "C22": {
  "status": "partial",
  "note": "The full statement is FALSE of the code (C22_false, C22_desynchronises: Encoder::encode inserts earlier fields before it rejects a later one). C22_failed_encode_partial proves exactly what remains: the table is the one after the valid prefix."
 },
 "C25": {
  "status": "partial",
  "note": "FALSE of the code for zero-length frames (C25_false: empty HEADERS without END_HEADERS does not open a block; C25_false_stuck: empty CONTINUATION with END_HEADERS does not close it). The two _partial theorems prove both halves for every byte stream without such frames."
 },
 "C26": {
  "status": "partial",
  "note": "Exact for every non-empty payload (with C44); zero-length frames with PADDED set are delivered instead of rejected (C26_empty_padded_accepted)."
 },
 "C23": {
  "status": "partial",
  "note": "All frame sequences except those with an empty final CONTINUATION (see C25_false_stuck) and HEADERS with priority information, which the serializer does not write."
 },
 "C28": {
  "status": "partial",
  "note": "FALSE of the code as stated (C28_false_shrink_refused, C28_false_sentinel, C28_false_negative); C28_peer_window_partial proves the exact shift whenever window+|delta| is within 2^31-1 and is not the -1 sentinel."
 },
 "C39": {
  "status": "proved",
  "note": "Proved under the property's own premise that each task completes once; C39_double_completion_runs_on exhibits what happens without it."
 },
 "C40": {
  "status": "partial",
  "note": "Proved for every execution in which no hook calls complete(ERROR) before the routed chain starts; FALSE otherwise (C40_false_prerouting: a PRE_ROUTING hook that completes with ERROR lets the error chain be entered twice)."
 },
 "C41": {
  "status": "partial",
  "note": "C41_false_reentrant_cancel: a task whose cancel() calls complete() re-entrantly finalises with the old status before 503 is set. C41_cancel_503_partial proves the 503 outcome otherwise; stickiness and ignored late calls are proved for all schedules."
 },
 "C53": {
  "status": "partial",
  "note": "Soundness for every history; the iff for histories without a refused call. FALSE after a refused call (C53_false_poisoned): add_route leaves nodes behind when it throws, and their capture names then refuse later valid routes."
 },
 "C56": {
  "status": "partial",
  "note": "Proved for encoders whose capacity is the default 4096 (the decoder's default). FALSE for the capacity the protocol classes configure (C56_false_own_capacity: the encoder's capacity is set from the endpoint's OWN header_table_size)."
 },
 "C59": {
  "status": "partial",
  "note": "C59_only_real_dates is unconditional; exactness is FALSE (C59_false_garbage: from_chars leftovers and the day name are ignored). C59_imf_exact_partial proves it for 29-octet inputs with digit-only numeric fields."
 },
 "C60": {
  "status": "partial",
  "note": "Proved for every request and file tree when no directory under the root has the index file name as a symbolic link (or index files are off). FALSE otherwise (C60_false_index_symlink: the index file is opened without re-resolving, so a link leads out of the root)."
 },
 "C61": {
  "status": "partial",
  "note": "Proved for request paths without `..`; FALSE with them (C61_false_missing_parent) and for index files (C61_false_index_symlink)."
 },
 "C62": {
  "status": "proved",
  "note": "Numbers up to 2^63-1; larger ones are refused with 416 although RFC 9110 clips them (C62_false_large_number)."
 },
 "C63": {
  "status": "partial",
  "note": "Exact for all tag lists except tags holding both a comma and a star (C63_false_star_in_tag). If-Modified-Since is evaluated although If-None-Match is present (C63_false_date_with_tag)."
 },
 "C67": {
  "status": "partial",
  "note": "FALSE in general (C67_false_lossy: quotes around a value and an empty path are lost). C67_roundtrip_partial proves the round trip for every cookie whose value, domain and path have no outer spaces or surrounding quotes, whose path is not empty and whose expiry year is in 1000..9999; qb::to_number<int> is a parameter assumed to read the number back."
 },
 "C69": {
  "note": "C69_false_escape shows the control-character guarantee does not extend to backslash-escaped octets in quoted values."
 },
 "C72": {
  "status": "partial",
  "note": "Acceptance is exact (C72_accepted). FALSE of the code for a chunked request with an empty body (C72_false_empty_chunked: no terminating chunk); the request line is a hypothesis because path and query are written unchecked (C72_false_line_break). C72_request_partial is the full statement outside these two cases."
 },
 "C73": {
  "status": "partial",
  "note": "Acceptance is exact (C73_accepted), bodiless statuses are complete (C73_bodiless). FALSE with an empty body and a declared non-zero length (C73_false_declared_length) or the chunked coding (C73_false_empty_chunked); C73_response_partial is the full statement otherwise."
 },
 "C74": {
  "status": "proved",
  "note": "For requests to which C72_request_partial applies."
 },
 "C76": {
  "status": "partial",
  "note": "C76_message is exact; independence of fragmentation holds when no body piece exceeds 16 MiB and is FALSE otherwise (C76_false_piece). A message without Content-Type gains an empty one (visible in C76_message)."
 },
 "C77": {
  "status": "partial",
  "note": "FALSE of the code: trailer fields (all but the last) are added to the header map after validation (C77_false_trailers). C77_no_trailers_partial covers messages without trailers."
 },
 "C78": {
  "status": "proved",
  "note": "llhttp is external: the theorem is about every engine satisfying the streaming laws (structure Lawful), with toy_lawful as an instance."
 },
 "C82": {
  "status": "partial",
  "note": "Proved when the clock does not advance between the two readings inside one call and the table is not full; false without the first assumption (C82_false_skew: a stale record dropped by another client's sweep restarts at a later clock reading than one that is reset)."
 },
 "C84": {
  "status": "proved",
  "note": "For sessions that expose a non-empty ip(); C84_false_no_address shows the fallback to untrusted headers otherwise."
 },
 "C79": {
  "status": "proved",
  "note": "Time in nanoseconds, monotone; qb::duration is external and taken as nanoseconds."
 },
 "C88": {
  "status": "partial",
  "note": "Connection window: full. Stream window: proved for client streams against the largest announced SETTINGS_INITIAL_WINDOW_SIZE. Missing: the current (lowered) window - C88_lowered_window_refuted shows the code violates it, server.h 2112 skips half-closed (remote) streams."
 },
 "C90": {
  "status": "proved",
  "note": "For streams the application answers once; C90_two_responses_refuted shows that answering twice while the first body waits for window corrupts it (server.h 1085-1093)."
 },
 "C91": {
  "status": "proved",
  "note": "Server protocol only; the window arithmetic is C88's."
 },
 "C93": {
  "status": "proved",
  "note": ""
 },
 "C94": {
  "status": "proved",
  "note": "The fields are those the HPACK decoder returned for the header block; that the decoder stays in step with the client is C96 (false of the code)."
 },
 "C92": {
  "status": "partial",
  "note": "The last clause (room on the connection) holds except after a DATA frame that exceeds the declared or maximal body length: its octets are never given back (server.h 339, 343); C92_stall_refuted shows a connection left without any window."
 },
 "C95": {
  "status": "proved",
  "note": "Counters of the server protocol; the framer's own limits are C23-C27."
 },
 "C96": {
  "status": "partial",
  "note": "C96_in_step_partial: the decoder has seen every completed block as long as no HEADERS was refused or came for a closed stream; those blocks are skipped (server.h 428, 432, 449, 476, 482), and C96_in_step_refuted shows a later request decoded wrongly because of it."
 },
 "C97": {
  "status": "partial",
  "note": "Proved for requests that end with HEADERS. For requests that end with DATA the stream is reset but goes on counting (server.h 376): C97_throw_data_refuted."
 },
 "C98": {
  "status": "partial",
  "note": "Proved for requests up to the number named in GOAWAY; that number is about streams of the server, and the server drops requests of the client above it (server.h 862): C98_goaway_refuted."
 },
 "C99": {
  "status": "partial",
  "note": "Permission, parent and number are proved; the promised request cannot be answered (server.h 1081): C99_push_answer_refuted."
 },
 "C100": {
  "status": "partial",
  "note": "The three exact theorems are complete; C100_roles_partial: with authentication required nobody passes without the required roles. With optional authentication and required roles a request without a token passes (auth.h 137-142): C100_roles_refuted."
 },
 "C101": {
  "status": "partial",
  "note": "Proved when a user was established before. Otherwise the gate falls back on the default options, whose HMAC key is empty, so a token signed with the empty key passes with any roles (auth.h 450): C101_empty_key, C101_refuted."
 },
 "C102": {
  "status": "partial",
  "note": "C102_readback_exact says what comes back for every user. It is the same user if identifier and name are not JSON texts; string claims are parsed as JSON (manager.cpp 330), so a numeric identifier is lost and a quoted one becomes another user's: C102_refuted. The JWT library is a parameter that returns the claims put in."
 },
 "C103": {
  "status": "proved",
  "note": "For schemes that are not empty and do not start with a blank; AuthMiddleware accepts any blank after the scheme, JwtMiddleware wants a space."
 },
 "C104": {
  "status": "partial",
  "note": "Exact for times below 2^63; an nbf from 2^63 on wraps and is accepted (manager.cpp 70, the unsigned branch is dead): C104_refuted."
 },
 "C105": {
  "status": "proved",
  "note": "qb::jwt::verify is a parameter: what it accepts under given options is its business."
 },
 "C106": {
  "status": "partial",
  "note": "Proved for subjects and names that do not read as numbers or truth values; others are converted (jwt.h 409-447) and then ignored by the auth middleware (auth.h 323): C106_refuted."
 },
 "C107": {
  "status": "proved",
  "note": "For values up to 64 KiB (longer ones throw)."
 },
 "C108": {
  "status": "proved",
  "note": ""
 },
 "C109": {
  "status": "partial",
  "note": "Complete for the selection; qualities are read exactly as 0, 1, 0.d-0.ddd, 1.0-1.000. RFC 9110 also allows a bare point: 1. is read as a refusal (compression.h 397): C109_bare_point_refuted."
 },
 "C110": {
  "status": "partial",
  "note": "Exact (C110_first_usable) and sound (C110_sound). A refusal behind * is ignored and qualities are not compared (headers.cpp 379-421): C110_late_refusal_refuted, C110_order_refuted."
 },
 "C111": {
  "status": "partial",
  "note": "C111_faithful is complete for encodings that are single names. 206 responses and responses with a strong ETag are compressed too (compression.h 323): C111_partial_content_refuted; Body::compress alone may cut its output (body.cpp 471): C111_cut_refuted. The compression library is a parameter with a stated contract."
 },
 "C112": {
  "status": "partial",
  "note": "Bounds, whole content of complete streams, headers and refusals are proved. A stream that is cut off is taken for the whole (body.cpp 549): C112_truncated_refuted; codings the library does not know are ignored (body.cpp 514): C112_unknown_coding_refuted; identity is refused: C112_identity_refuted."
 },
 "C113": {
  "status": "proved",
  "note": "For every body of the grammar Message. Besides, cut-off bodies are accepted (C113_truncated: only hasError is asked, body.cpp 768), a delimiter followed by CR and not LF hides the closing delimiter (C113_hidden_close: PART_BOUNDARY is not reset, multipart.cpp 166-176), a preamble is refused (C113_preamble)."
 },
 "C114": {
  "status": "proved",
  "note": "With the exceptions named in the property, each shown to be needed: C114_no_parts, C114_leading_space, C114_delimiter_in_data."
 },
 "C116": {
  "status": "partial",
  "note": "Refuted as it stands (C116_refuted: a CRLF after the closing delimiter in the same piece); proved for bodies without octets after the closing delimiter and without a header line that has no colon (C116_reference, C116_error, C116_cuts_partial)."
 },
 "C117": {
  "status": "proved",
  "note": "Memory safety holds for all inputs. A stronger claim, that feed never throws, is refuted by a header line without a colon (C117_refuted), which also puts octets into the data that are not in the body (C117_phantom_data)."
 },
 "C119": {
  "status": "proved",
  "note": "qb::io::uri::encode/decode are parameters with the stated contract; they are not in this repository."
 },
 "C120": {
  "status": "proved",
  "note": "Specification Dispatch in Route/Spec.lean; path parameters of 405 answers are not specified."
 },
 "C124": {
  "status": "partial",
  "note": "Proved when group and controller handles are used only between a declaration on the router and the next compile or request (C124_history_partial), and after any successful compile (C124_compile_restores). False in general: a route added through a handle after compiling stays invisible (C124_false_late_handle, router.h 607-613: only Router methods reset _is_compiled)."
 },
 "C125": {
  "status": "partial",
  "note": "Proved for a router that is not marked compiled (C125_refused_throws_partial). False in general: if compile() throws on a router compiled before, _is_compiled stays true and requests are served from the half-built table (C125_false_half_table, router.h 598-604)."
 },
 "C131": {
  "status": "partial",
  "note": "Proved for users who do not call disconnect from callbacks nor the client from connect callbacks (C131_not_forgotten_partial). False in general: disconnect() then push_request() inside a response callback leaves the client stuck until the next disconnect (C131_full_is_false, C131_stuck_forever)."
 },
 "C132": {
  "status": "partial",
  "note": "Proved for callbacks that do not call the client back (C132_disconnect_returns_partial). False in general: a callback that pushes its request again on failure keeps disconnect() running for ever (C132_retry_never_ends)."
 },
 "C134": {
  "status": "partial",
  "note": "Proved for HTTP/3 (C134_h3_truthful). False for HTTP/2: unanswered requests are reported with the default Response, status 200 (C134_h2_partial, C134_h2_reports_success; 2/client.cpp 584-588 tests for status 0)."
 },
 "C136": {
  "status": "proved",
  "note": "The URI parser is any function; C136_relative_accepted assumes it reads back the scheme, host and port it was given."
 },
 "C138": {
  "status": "partial",
  "note": "Proved: the stream limit and admission for all histories, the limit of pending requests for histories in which no request times out (C138_limit_partial). False in general: requests kept by the timeout handler are not counted while its callbacks run (C138_limit_is_false)."
 },
 "C142": {
  "status": "partial",
  "note": "Proved for histories without failed streams and expired requests (C142_not_forgotten_partial). False in general: fail_request never sends the requests that wait (C142_full_is_false). Also proved in full: no request is left on the wire of a connection that is gone (C142_none_on_a_dead_wire), expired requests on the wire get 408 (C142_expired)."
 },
 "C143": {
  "status": "partial",
  "note": "Proved when disconnect() is not called from within callbacks and no request makes the HPACK encoder end the connection (C143_no_crash_partial). False in general (C143_full_is_false, C143_retry_crashes)."
 },
 "C148": {
  "status": "partial",
  "note": "Everything proved but the last clause, which is proved for texts without << (C148_no_tag_partial) and false in general (C148_full_is_false): the second < is taken for text."
 },
 "C149": {
  "status": "partial",
  "note": "The literal is complete for every text (C149_literal); the pattern is exact for texts without a backslash (C149_like_partial); false in general (C149_full_is_false): the backslash is not escaped."
 },
 "C155": {
  "status": "partial",
  "note": "Acceptance is exact (C155_response_delivered); the content is that of the final response plus the fields of interim responses before it (C155_response_content_partial), and the property is false in general (C155_interim_fields_leak_partial)."
 },
 "C156": {
  "status": "partial",
  "note": "What is sent is exact in both directions (C156_request_sent, C156_response_sent, C156_request_wellformed); two clauses are false: pseudo header values are not validated (C156_dirty_path_partial), and a message refused for its trailers was already handed over (C156_late_refusal_partial)."
 },
 "C159": {
  "status": "partial",
  "note": "Everything proved but the last clause, which holds as long as nghttp3 reports no error (C159_all_told_partial) and is false otherwise (C159_error_forgets_partial)."
 },
 "C160": {
  "status": "partial",
  "note": "In all histories none is completed twice and the accounts are exact up to destroyed requests (C160_at_most_once); none is destroyed in polite histories (C160_exactly_once_partial); false in general (C160_lost_partial)."
 },
 "C161": {
  "status": "partial",
  "note": "Streams are unique in all histories (C161_streams_unique); own response in polite histories (C161_own_response_partial); false in general (C161_mix_up_partial)."
 },
 "C162": {
  "status": "partial",
  "note": "No destruction during a read unless disconnect is called in one (C162_not_freed_while_reading_partial); no crash in polite histories (C162_no_crash_partial); false in general (three counterexamples)."
 },
 "C163": {
  "status": "partial",
  "note": "First clause in all histories (C163_connect_once); second clause without disconnect (C163_waits_for_attempt_partial); the others are false (C163_forgotten_partial, C163_stale_timer_partial, C163_told_wrong_partial)."
 },
 "C169": {
  "status": "partial",
  "note": "Order, prefix and END_STREAM on DATA and HEADERS in all histories; DATA can follow trailers that the application sends early, and announced trailers may never be sent (examples in Clp/TheoremsExamples)."
 },
 "C172": {
  "status": "partial",
  "note": "Everything but the acknowledgement of SETTINGS and trailers of the application, which can follow (examples in Clp/TheoremsExamples)."
 },
 "C174": {
  "status": "partial",
  "note": "A request without an outcome was not reset, or was ended or disowned by the server (C174_reason_partial); ends are reported under the conditions of C167; false in general (three counterexamples)."
 },
 "C178": {
  "status": "partial",
  "note": "The answer to the peer's Close for clients, and for sessions without violations and failed closes; false in general (three counterexamples)."
 },
 "C179": {
  "status": "partial",
  "note": "The second receiver throws and changes nothing; a cancelled receiver swallows the next frame (counterexample)."
 },
 "C182": {
  "status": "partial",
  "note": "All but the status of a refusal by a hook that sets none: that is 200 (counterexample)."
 },
 "C184": {
  "status": "partial",
  "note": "All but the use by graceful_shutdown after the shutdown notice, which can come after the destruction (counterexample)."
 },
 "C185": {
  "status": "partial",
  "note": "Under one request per stream; a context whose connection closes while it is being routed is orphaned (counterexample)."
 },
 "C186": {
  "status": "partial",
  "note": "Closing is proved sound, and live at the callbacks that check; not when the last request's stream is closed, and a request being routed is not counted (counterexamples)."
 },
 "C196": {
  "status": "proved",
  "note": "All sequences of registrations; handlers are arbitrary actions on the context."
 },
 "C197": {
  "status": "proved",
  "note": "C197_ended for every handler that does not destroy the context; C197_status for handlers that set statuses."
 },
 "C198": {
  "status": "proved",
  "note": "A child that throws after it completed is outside the claim: C198_false_throw_after_continue."
 },
 "C199": {
  "status": "proved",
  "note": "With two timers of one name in between: C199_false_same_name."
 },
 "C200": {
  "status": "proved",
  "note": "For all executions in which no dangling iterator was used (C201); the event loop is not re-entered."
 },
 "C201": {
  "status": "partial",
  "note": "FALSE of the code in general (C201_false_disconnect); C201_iterators_partial proves it for all executions in which no stream error is reported for a stream while its own context is being settled."
 },
 "C202": {
  "status": "proved",
  "note": "All responses."
 }
}