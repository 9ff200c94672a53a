{"id": "C01", "title": "URI component encoding is inverted by path decoding", "statement": "For every byte string s, decode_path_component(uri_encode_component(s)) == s, and the encoded form contains only unreserved characters and well-formed %XX escapes with upper-case hex digits.", "quantifier": "every byte string", "why_tests_cant": "infinitely many byte strings; an escape at any offset interacts with its neighbours", "anchors": ["src/qbm/http/utility.cpp::uri_encode_component", "src/qbm/http/utility.cpp::decode_path_component"]}
{"id": "C02", "title": "Path decoding leaves everything but complete escapes alone", "statement": "decode_path_component never grows its input, is the identity on strings without '%', keeps '+' literal and leaves incomplete or non-hex escapes byte-for-byte; each complete %XX becomes exactly one byte.", "quantifier": "every byte string", "why_tests_cant": "unbounded inputs and every position of malformed escapes", "anchors": ["src/qbm/http/utility.cpp::decode_path_component"]}
{"id": "C03", "title": "HTML escaping is injective and neutralises markup", "statement": "escape_html(s) contains none of < > \" ' and every & in it starts one of the five entities it emits; two different inputs never produce the same output.", "quantifier": "every byte string (pair of byte strings for injectivity)", "why_tests_cant": "injectivity quantifies over pairs of unbounded strings", "anchors": ["src/qbm/http/utility.cpp::escape_html"]}
{"id": "C04", "title": "Case-insensitive comparison is exactly ASCII folding", "statement": "iequals(a,b) holds iff a and b have the same length and are byte-wise equal after mapping A-Z to a-z (no other byte folds); it is therefore an equivalence relation.", "quantifier": "every pair (triple) of byte strings", "why_tests_cant": "equivalence relation over all pairs of unbounded strings including non-letters that differ by 0x20", "anchors": ["src/qbm/http/utility.h::iequals", "src/qbm/http/utility.h::ascii_to_lower"]}
{"id": "C05", "title": "Header list splitting loses nothing and invents nothing", "statement": "split_and_trim_header_list(v,d) is exactly the list of d-separated fields of v, in order, each stripped of leading/trailing SP/HTAB, with empty ones dropped.", "quantifier": "every byte string and delimiter", "why_tests_cant": "unbounded input; order and completeness need induction", "anchors": ["src/qbm/http/utility.cpp::split_and_trim_header_list", "src/qbm/http/utility.h::trim_http_whitespace"]}
{"id": "C06", "title": "Splitting by a boundary is lossless", "statement": "Joining split_string_by(s,b) with b gives s back for every non-empty b, and no part contains an occurrence of b; split_string over a delimiter set yields exactly the maximal non-empty delimiter-free runs in order.", "quantifier": "every string and non-empty boundary / delimiter set", "why_tests_cant": "unbounded strings, overlapping boundary occurrences", "anchors": ["src/qbm/http/utility.h::split_string_by", "src/qbm/http/utility.h::split_string"]}
{"id": "C07", "title": "Route matching is sound", "statement": "If match(path, method) returns a route, some registered route for that method has a pattern that matches the path: static segments equal, each :param bound to its segment, *wildcard bound to the remainder; the captured parameters are exactly those bindings.", "quantifier": "every sequence of successful registrations, every request path and method", "why_tests_cant": "any number of routes, any tree shape, any path depth", "anchors": ["src/qbm/http/routing/radix_tree.h::add_route", "src/qbm/http/routing/radix_tree.h::match", "src/qbm/http/routing/radix_tree.h::match_recursive"]}
{"id": "C08", "title": "Route matching is complete", "statement": "If any registered route for the method matches the path, match() returns a route (backtracking never misses one).", "quantifier": "every sequence of successful registrations, every path and method", "why_tests_cant": "needs all tree shapes with dead-end static/param branches", "anchors": ["src/qbm/http/routing/radix_tree.h::match_recursive"]}
{"id": "C09", "title": "Static beats parameter beats wildcard", "statement": "Among all registered routes that match, the one returned is the first in the lexicographic segment priority static > parameter > wildcard (an exact end-of-path handler beats an empty wildcard).", "quantifier": "every route set and path", "why_tests_cant": "priority must hold for every overlap of patterns at any depth", "anchors": ["src/qbm/http/routing/radix_tree.h::match_recursive"]}
{"id": "C10", "title": "Later registration replaces earlier, and unrelated routes are unaffected", "statement": "Registering a pattern again for the same method replaces its handler; registering any route never changes the result of matching a path that the new pattern does not match, nor of other methods.", "quantifier": "every route set, new route and path", "why_tests_cant": "frame property over all trees and paths", "anchors": ["src/qbm/http/routing/radix_tree.h::add_route"]}
{"id": "C11", "title": "Allowed methods agree with matching", "statement": "allowed_methods(path) lists a method iff match(path, method) succeeds, sorted and without duplicates; it is empty iff no method matches (404 vs 405 decision is right).", "quantifier": "every route set, path and method", "why_tests_cant": "the two traversals must agree on every tree", "anchors": ["src/qbm/http/routing/radix_tree.h::allowed_methods", "src/qbm/http/routing/radix_tree.h::match"]}
{"id": "C12", "title": "Path segmentation ignores redundant slashes", "statement": "Two paths with the same non-empty '/'-separated segments match identically; segments never contain '/' and are never empty.", "quantifier": "every path string", "why_tests_cant": "unbounded strings", "anchors": ["src/qbm/http/routing/radix_tree.h::split_path_to_segments"]}
{"id": "C13", "title": "HPACK integers round-trip and never over-read", "statement": "For every prefix size 1..8 and every 64-bit value, decode_integer reads back what encode_integer wrote, consumes exactly those bytes, and the prefix flag bits are preserved.", "quantifier": "every N in 1..8, every uint64, every trailing input", "why_tests_cant": "2^64 values times every continuation", "anchors": ["src/qbm/http/2/protocol/hpack.cpp::encode_integer", "src/qbm/http/2/protocol/hpack.cpp::decode_integer"]}
{"id": "C14", "title": "HPACK integer decoding never wraps", "statement": "On any byte sequence decode_integer either fails or returns the mathematically exact value, which fits in 64 bits; it never consumes more bytes than are available.", "quantifier": "every byte sequence", "why_tests_cant": "unbounded continuation sequences", "anchors": ["src/qbm/http/2/protocol/hpack.cpp::decode_integer"]}
{"id": "C15", "title": "Huffman coding round-trips every string", "statement": "For every byte string s, huffman_decode(huffman_encode(s)) succeeds with s, and the encoded length is ceil(total code bits / 8) as should_use_huffman/calculate_huffman_encoded_size predict.", "quantifier": "every byte string", "why_tests_cant": "unbounded strings over 256 symbols, every bit alignment", "anchors": ["src/qbm/http/2/protocol/hpack_huffman.cpp::huffman_encode", "src/qbm/http/2/protocol/hpack_huffman.cpp::huffman_decode", "src/qbm/http/2/protocol/hpack_huffman.cpp::should_use_huffman"]}
{"id": "C16", "title": "Huffman decoding rejects bad padding and EOS", "statement": "huffman_decode accepts a byte string only if its bits are a sequence of symbol codes (never EOS) followed by at most 7 one bits; in particular accepted input is canonical: re-encoding the output gives the same bytes.", "quantifier": "every byte string", "why_tests_cant": "every bit pattern of any length", "anchors": ["src/qbm/http/2/protocol/hpack_huffman.cpp::huffman_decode"]}
{"id": "C17", "title": "HPACK dynamic table respects its size bound", "statement": "After any sequence of insertions, size changes and clears the table's accounted size equals the sum of entry sizes (name+value+32) and never exceeds its maximum; entries are the most recent ones in order.", "quantifier": "every operation sequence", "why_tests_cant": "unbounded histories", "anchors": ["src/qbm/http/2/protocol/hpack.cpp::DynamicTable::add", "src/qbm/http/2/protocol/hpack.cpp::DynamicTable::set_max_byte_size"]}
{"id": "C18", "title": "HPACK ring buffer refines a list", "statement": "The power-of-two ring buffer behaves exactly like a newest-first list under add / evict / resize / clear for every history; index i always denotes the i-th newest entry and no live slot is overwritten.", "quantifier": "every operation sequence", "why_tests_cant": "wrap-around and growth at every offset", "anchors": ["src/qbm/http/2/protocol/hpack.cpp::DynamicTable::ensure_capacity_for_one_more", "src/qbm/http/2/protocol/hpack.h::DynamicTable::slot_of"]}
{"id": "C19", "title": "HPACK encoder and decoder stay synchronised", "statement": "For every sequence of valid header lists encoded by one encoder and decoded in order by one decoder (default settings), every block decodes to exactly the same (name,value) list, and both dynamic tables hold the same entries.", "quantifier": "every sequence of header lists", "why_tests_cant": "history-dependent compression state; every previous block influences the next", "anchors": ["src/qbm/http/2/protocol/hpack.cpp::Encoder::encode", "src/qbm/http/2/protocol/hpack.cpp::Decoder::decode"]}
{"id": "C20", "title": "Sensitive fields are never put in a compression table", "statement": "Fields flagged sensitive, authorization/cookie/set-cookie/proxy-authorization and pseudo headers never enter the encoder's dynamic table, whatever the history.", "quantifier": "every sequence of header lists", "why_tests_cant": "history property", "anchors": ["src/qbm/http/2/protocol/hpack.cpp::Encoder::encode", "src/qbm/http/2/protocol/hpack.h::is_sensitive_by_default"]}
{"id": "C21", "title": "Decoded header lists respect the size limit", "statement": "If decode succeeds with a configured non-zero header list limit, the sum of name+value+32 over the emitted fields is at most the limit.", "quantifier": "every byte block and decoder state", "why_tests_cant": "every input block", "anchors": ["src/qbm/http/2/protocol/hpack.cpp::Decoder::decode"]}
{"id": "C22", "title": "A failed header-block encode leaves the compression context unchanged", "statement": "If Encoder::encode returns false (an invalid field), the encoder's dynamic table is what it was before, so that a discarded block cannot desynchronise the peer.", "quantifier": "every header list and encoder state", "why_tests_cant": "must hold for an invalid field at every position after any history", "anchors": ["src/qbm/http/2/protocol/hpack.cpp::Encoder::encode"]}
{"id": "C23", "title": "HTTP/2 frames round-trip through serializer and framer", "statement": "For every frame (DATA, HEADERS, PRIORITY, RST_STREAM, SETTINGS, PUSH_PROMISE, PING, GOAWAY, WINDOW_UPDATE, CONTINUATION) within limits, the bytes written, when read by the framer, deliver exactly that frame and leave the framer ready for the next header.", "quantifier": "every frame value, any concatenation of frames, any split of the byte stream into reads", "why_tests_cant": "all payloads and all segmentations", "anchors": ["src/qbm/http/2/protocol/base.cpp::pipe::put<Http2FrameData<...>>", "src/qbm/http/2/protocol/base.h::Http2Protocol::onMessage", "src/qbm/http/2/protocol/base.h::getMessageSize"]}
{"id": "C24", "title": "A header block split into HEADERS+CONTINUATION reassembles", "statement": "send_headers_with_continuation emits frames whose payloads are at most the peer's max frame size, concatenate to the block, with END_HEADERS on exactly the last one.", "quantifier": "every block and every peer max frame size", "why_tests_cant": "block sizes at every boundary", "anchors": ["src/qbm/http/2/protocol/base.h::send_headers_with_continuation"]}
{"id": "C25", "title": "Header blocks are not interleaved", "statement": "After a HEADERS/PUSH_PROMISE frame without END_HEADERS the framer delivers nothing but CONTINUATION frames of the same stream until END_HEADERS, and after END_HEADERS it accepts other frames again.", "quantifier": "every byte stream", "why_tests_cant": "every history of frames, including empty fragments", "anchors": ["src/qbm/http/2/protocol/base.h::onMessage", "src/qbm/http/2/protocol/base.h::handle_zero_payload_frame_dispatch", "src/qbm/http/2/protocol/base.h::handle_continuation_frame_payload"]}
{"id": "C26", "title": "Padding and priority fields never leak or over-read", "statement": "For padded DATA/HEADERS/PUSH_PROMISE frames the delivered data is exactly the payload without pad-length octet, priority fields and padding; frames whose pad length does not fit are rejected, and no byte outside the payload is ever read.", "quantifier": "every payload and flag combination", "why_tests_cant": "all lengths/pad lengths, underflow cases", "anchors": ["src/qbm/http/2/protocol/base.h::validate_padded_frame", "src/qbm/http/2/protocol/base.h::handle_headers_frame_payload", "src/qbm/http/2/protocol/base.h::handle_push_promise_frame_payload"]}
{"id": "C27", "title": "Frame size limit is enforced before buffering", "statement": "The framer never waits for, or delivers, a payload longer than our advertised max frame size.", "quantifier": "every byte stream", "why_tests_cant": "every header value", "anchors": ["src/qbm/http/2/protocol/base.h::onMessage"]}
{"id": "C28", "title": "Flow-control window arithmetic is exact", "statement": "A peer SETTINGS_INITIAL_WINDOW_SIZE change shifts each stream's send window by exactly new-old (possibly negative), failing only if the result exceeds 2^31-1.", "quantifier": "every window value and pair of initial sizes", "why_tests_cant": "signed arithmetic corner cases", "anchors": ["src/qbm/http/2/protocol/stream.cpp::update_peer_window_size", "src/qbm/http/2/protocol/stream.h::FlowControlManager::update_window_safe"]}
{"id": "C29", "title": "HTTP/2 stream lifecycle is a legal RFC 7540 path", "statement": "From OPEN, END_STREAM sent/received and resets lead only along legal transitions; a stream is CLOSED exactly when both sides ended or a reset happened; CLOSED is final.", "quantifier": "every event sequence", "why_tests_cant": "unbounded histories", "anchors": ["src/qbm/http/2/protocol/stream.cpp::transition_state", "src/qbm/http/2/protocol/stream.cpp::mark_reset", "src/qbm/http/2/protocol/stream.h::can_send_data"]}
{"id": "C30", "title": "Content-Length parsing is exact", "statement": "parse_content_length accepts exactly optionally-OWS-padded non-empty digit strings whose value fits in 64 bits, and returns that value.", "quantifier": "every byte string", "why_tests_cant": "overflow boundary with leading zeros of any length", "anchors": ["src/qbm/http/2/protocol/base.cpp::parse_content_length"]}
{"id": "C31", "title": "Request pseudo-header validation is exact", "statement": "validate_request_pseudo_headers accepts iff :method, :path, :scheme, :authority each appear exactly once, are non-empty, and there is no other pseudo header; order validation accepts iff no pseudo header follows a regular one.", "quantifier": "every header list", "why_tests_cant": "every permutation and multiplicity", "anchors": ["src/qbm/http/2/protocol/base.cpp::validate_request_pseudo_headers", "src/qbm/http/2/protocol/base.cpp::validate_pseudo_header_order"]}
{"id": "C32", "title": "WebSocket frames round-trip", "statement": "For every message allowed to be sent (valid opcode, RSV clear, control <=125 and FIN) and every masking key, the serialized frame read by the peer's parser yields the same opcode/FIN and exactly the same payload, consuming exactly the frame's bytes.", "quantifier": "every message, every 4-byte mask, any following bytes, any read segmentation", "why_tests_cant": "all payload lengths (3 length encodings), masks and splits", "anchors": ["src/qbm/http/ws/ws.cpp::fill_masked_message", "src/qbm/http/ws/ws.cpp::fill_unmasked_message", "src/qbm/http/ws/ws.h::base::getMessageSize", "src/qbm/http/ws/ws.h::base::onMessage"]}
{"id": "C33", "title": "Fragmented WebSocket messages reassemble", "statement": "A text/binary message split into any number of fragments, with any control frames interleaved, is delivered once, as the concatenation of the fragments, under the opcode of the first; control frames are answered independently.", "quantifier": "every fragmentation and interleaving", "why_tests_cant": "unbounded fragment lists and interleavings", "anchors": ["src/qbm/http/ws/ws.h::processDataFrame", "src/qbm/http/ws/ws.h::processControlFrame"]}
{"id": "C34", "title": "WebSocket parser accepts only legal frames", "statement": "The parser delivers a frame only if opcode is defined, RSV bits are zero, the mask bit matches the role, length encoding is minimal with top bit clear, and control frames are final with at most 125 bytes; anything else closes the connection with a Close frame and nothing is delivered afterwards.", "quantifier": "every byte stream", "why_tests_cant": "every header combination and every later input", "anchors": ["src/qbm/http/ws/ws.h::getMessageSize", "src/qbm/http/ws/ws.h::fail_connection"]}
{"id": "C35", "title": "WebSocket message size limit", "statement": "With a configured limit L>0, no delivered data message exceeds L bytes, however it is fragmented.", "quantifier": "every frame sequence and limit", "why_tests_cant": "accumulation over unbounded fragments", "anchors": ["src/qbm/http/ws/ws.h::processDataFrame", "src/qbm/http/ws/ws.h::set_max_payload_size"]}
{"id": "C36", "title": "UTF-8 validation is exact", "statement": "is_utf8 accepts exactly the well-formed UTF-8 byte strings of RFC 3629: concatenations of encodings of Unicode scalar values (no overlongs, no surrogates, max U+10FFFF).", "quantifier": "every byte string", "why_tests_cant": "infinite set of strings, every malformed position", "anchors": ["src/qbm/http/ws/ws.cpp::is_utf8"]}
{"id": "C37", "title": "Close frames are always valid", "statement": "A constructed Close frame has payload 2..125 bytes, a sendable code, and a UTF-8 reason which is a prefix of the given reason; construction fails exactly for unsendable codes or short invalid-UTF-8 reasons.", "quantifier": "every code and reason", "why_tests_cant": "every reason length / multi-byte boundary at 123", "anchors": ["src/qbm/http/ws/ws.cpp::MessageClose", "src/qbm/http/ws/ws.h::is_sendable_close_code"]}
{"id": "C38", "title": "A request is finalised exactly once", "statement": "Whatever sequence of complete/cancel calls tasks and outside callers make, in whatever nesting, the finalisation callback (the response) runs at most once, and exactly once by the time the context is destroyed unless suppressed.", "quantifier": "every task behaviour and every external call sequence", "why_tests_cant": "re-entrant schedules and double completions", "anchors": ["src/qbm/http/routing/context.h::complete", "src/qbm/http/routing/context.h::finalize_processing_internal", "src/qbm/http/routing/context.h::~Context"]}
{"id": "C39", "title": "Tasks run in order, none after termination", "statement": "In a chain where each task completes once, tasks execute in registration order, each at most once; after COMPLETE, cancel or finalisation no further task starts.", "quantifier": "every chain length and result sequence", "why_tests_cant": "unbounded chains and async schedules", "anchors": ["src/qbm/http/routing/context.h::proceed_to_next_task_internal", "src/qbm/http/routing/context.h::complete"]}
{"id": "C40", "title": "The error chain is entered at most once", "statement": "An ERROR in the normal/not-found chain runs the configured error chain from its first task; an ERROR inside the error chain finalises with status 500 — never loops.", "quantifier": "every chain configuration and result sequence", "why_tests_cant": "termination over all schedules", "anchors": ["src/qbm/http/routing/context.h::complete"]}
{"id": "C41", "title": "Cancellation wins", "statement": "After cancel(), is_cancelled stays true, the response status is 503 at finalisation, no further task runs and later complete() calls have no effect on the outcome.", "quantifier": "every schedule after cancel", "why_tests_cant": "any later interleaving", "anchors": ["src/qbm/http/routing/context.h::cancel", "src/qbm/http/routing/context.h::complete"]}
{"id": "C42", "title": "HPACK static-table lookup is exact", "statement": "find_name_match returns the lowest static index carrying the given name and nothing when no entry carries it; find_exact_match finds an index exactly when the (name,value) pair is in the table, whatever the hash collisions in the open-addressing index.", "quantifier": "every byte string as name and value", "why_tests_cant": "names range over all byte strings; the hash index can only be sampled", "anchors": ["src/qbm/http/2/protocol/hpack.h::find_name_match, find_exact_match, build_name_index"]}
{"id": "C43", "title": "Nothing is delivered after a framing failure", "statement": "Once an HTTP/2 connection has failed (framing error, wrong preface, or the handler closed it) no further frame is handed to the application, whatever bytes follow; nothing at all is delivered unless the connection starts with the exact 24-octet preface.", "quantifier": "every byte stream, every read segmentation, every handler", "why_tests_cant": "error states are reached by unboundedly many byte streams and the I/O loop may keep feeding bytes after the error", "anchors": ["src/qbm/http/2/protocol/base.h::onMessage, handle_payload_frame_dispatch"]}
{"id": "C44", "title": "Received HTTP/2 frames mean exactly their octets", "statement": "A non-empty frame passing the header checks is delivered with given content iff its payload octets are the RFC layout of that content for the frame's type and flags (exact sizes for PRIORITY, RST_STREAM, PING, WINDOW_UPDATE; multiples of six for SETTINGS; at least eight for GOAWAY; non-zero increments).", "quantifier": "every header and every payload", "why_tests_cant": "the payload space is unbounded and each flag combination shifts offsets", "anchors": ["src/qbm/http/2/protocol/base.h::handle_*_frame_payload"]}
{"id": "C45", "title": "HTTP/2 receive window never starves or over-credits", "statement": "For every initial window of 2..2^31-1 octets and every sequence of DATA frames, if a WINDOW_UPDATE for the processed octets is sent whenever process_received_data asks for it, then window + unacknowledged = initial window at all times and more than half of the window is open after every frame.", "quantifier": "all initial windows, all sequences of DATA frame sizes below 2^24", "why_tests_cant": "ranges over unbounded histories of frame sizes", "anchors": ["src/qbm/http/2/protocol/stream.h::process_received_data", "src/qbm/http/2/protocol/stream.h::reset_window_update_tracking", "src/qbm/http/2/protocol/stream.h::calculate_window_threshold"]}
{"id": "C46", "title": "Response pseudo-header validation is exact", "statement": "validate_response_pseudo_headers accepts exactly the header lists whose only pseudo header is one :status of exactly three digits.", "quantifier": "all header lists", "why_tests_cant": "infinite input space", "anchors": ["src/qbm/http/2/protocol/base.cpp::validate_response_pseudo_headers"]}
{"id": "C47", "title": "HTTP/2 header field validation is exact", "statement": "is_valid_header_field accepts exactly non-empty names of lower-case token characters with values free of NUL, CR, LF, other control characters (except TAB) and DEL; forbidden connection-specific names are exactly the RFC list plus host.", "quantifier": "all byte strings", "why_tests_cant": "infinite input space; security relevant (header injection, request smuggling)", "anchors": ["src/qbm/http/2/protocol/base.cpp::is_valid_header_field", "src/qbm/http/2/protocol/base.cpp::is_valid_header_value", "src/qbm/http/2/protocol/base.cpp::is_forbidden_header"]}
{"id": "C48", "title": "TE request header validation is exact", "statement": "is_valid_request_te_value accepts iff the comma-separated list has at least one non-empty element and every non-empty element is 'trailers' up to ASCII case.", "quantifier": "all byte strings", "why_tests_cant": "infinite input space", "anchors": ["src/qbm/http/2/protocol/base.cpp::is_valid_request_te_value"]}
{"id": "C49", "title": "HTTP/2 settings, frame size and stream id validation is exact", "statement": "validate_setting refuses exactly the values forbidden by RFC 9113 6.5.2 with the right error code; the effective maximum frame size always lies in 2^14..2^24-1; validate_stream_id_for_frame accepts exactly the stream ids RFC 9113 allows for each frame type.", "quantifier": "all setting identifiers and values, all frame types and stream ids", "why_tests_cant": "2^48 pairs", "anchors": ["src/qbm/http/2/protocol/base.cpp::validate_setting", "src/qbm/http/2/protocol/base.cpp::calculate_safe_max_frame_size", "src/qbm/http/2/protocol/base.cpp::validate_stream_id_for_frame"]}
{"id": "C50", "title": "WebSocket input segmentation does not matter", "statement": "The handler calls and queued frames produced by a byte stream, and whether the connection survives, depend only on the concatenation of the received chunks, not on how they were cut.", "quantifier": "every byte stream, every segmentation, either role, any size limit", "why_tests_cant": "every cut point of every stream, including inside headers, masks and zero-length frames", "anchors": ["src/qbm/http/ws/ws.h::base::getMessageSize", "src/qbm/http/ws/ws.h::base::onMessage"]}
{"id": "C51", "title": "Only valid messages are delivered", "statement": "Every message delivered to the application is either a final text message that is well-formed UTF-8 or a final binary message.", "quantifier": "every byte stream", "why_tests_cant": "UTF-8 validity over reassembled fragments of any length", "anchors": ["src/qbm/http/ws/ws.h::processDataFrame"]}
{"id": "C52", "title": "Automatic WebSocket replies are legal", "statement": "Every frame the protocol object sends by itself (pong, close echo, error close) is a Pong or Close frame with at most 125 payload octets, masked exactly by clients, and its serialization never throws.", "quantifier": "every byte stream, both roles", "why_tests_cant": "every input that can provoke a reply", "anchors": ["src/qbm/http/ws/ws.h::fail_connection", "src/qbm/http/ws/ws.h::processControlFrame", "src/qbm/http/ws/ws.cpp::enforce_outgoing_frame_constraints"]}
{"id": "C53", "title": "Route registration accepts exactly the consistent patterns", "statement": "add_route accepts a pattern iff its captures are named, a wildcard comes last, capture names are distinct, the method is a real one and no capture position is named differently from an already registered route; otherwise it throws.", "quantifier": "every history of registrations and every pattern string", "why_tests_cant": "the accept/reject decision depends on the whole registration history", "anchors": ["src/qbm/http/routing/radix_tree.h::add_route"]}
{"id": "C54", "title": "HPACK decoding is exact", "statement": "After any history, Decoder::decode accepts a byte block iff it is a well-formed RFC 7541 header block for the current dynamic table and within the header-list limit, and then yields exactly that block's fields and the table RFC 7541 prescribes.", "quantifier": "every decoder history and every byte block", "why_tests_cant": "the accept/reject boundary ranges over all byte strings and all table states", "anchors": ["src/qbm/http/2/protocol/hpack.cpp::HpackDecoder::decode"]}
{"id": "C55", "title": "HPACK encoding accepts exactly legal fields", "statement": "Encoder::encode reports success iff every field in the list has a legal header name and value (non-empty printable name with ':' only in pseudo-header names; value of HTAB and printable ASCII).", "quantifier": "every encoder state and header list", "why_tests_cant": "all byte strings", "anchors": ["src/qbm/http/2/protocol/hpack.cpp::HpackEncoder::encode"]}
{"id": "C56", "title": "An unannounced table shrink keeps the connection decodable", "statement": "When the peer lowers its header table limit and the encoder shrinks without sending a size update, every later block still decodes to exactly what was encoded and the encoder's table stays within every limit the peer has set.", "quantifier": "every interleaving of header blocks and limit changes", "why_tests_cant": "histories of both ends, unbounded", "anchors": ["src/qbm/http/2/protocol/hpack.cpp::HpackEncoder::set_peer_max_dynamic_table_size", "src/qbm/http/2/protocol/server.h"]}
{"id": "C57", "title": "HTTP dates are formatted by the calendar", "statement": "format_http_date writes every instant of the years 1000-9999 as its IMF-fixdate: the right calendar day, day of week and time of day in UTC.", "quantifier": "every time point", "why_tests_cant": "instants range over 9000 years; leap rules and rounding interact", "anchors": ["src/qbm/http/date.cpp::format_http_date"]}
{"id": "C58", "title": "All RFC date formats are read as the instant they denote", "statement": "parse_http_date reads IMF-fixdate, rfc850-date and asctime-date of every existing day to exactly that instant; parsing a formatted date returns the instant to the second.", "quantifier": "every instant and each of the three formats", "why_tests_cant": "all instants of 9999 years in three formats", "anchors": ["src/qbm/http/date.cpp::parse_http_date", "src/qbm/http/date.cpp::make_time_point_utc"]}
{"id": "C59", "title": "Only real dates are read", "statement": "Whatever the input, parse_http_date returns only instants that are existing calendar days and times, and accepts only RFC date strings.", "quantifier": "every byte string", "why_tests_cant": "accept/reject over all byte strings", "anchors": ["src/qbm/http/date.cpp::parse_rfc1123_date", "src/qbm/http/date.cpp::parse_rfc850_date", "src/qbm/http/date.cpp::parse_asctime_date"]}
{"id": "C60", "title": "Static files stay inside the root", "statement": "Whatever the request path (with any `..`, `.`, empty segment, percent escape or symbolic link), what StaticFilesMiddleware sends is a fixed refusal message, an empty body, a listing of a directory inside the configured root, or octets of a regular file that lies physically inside the root.", "quantifier": "every file tree, configuration with a canonical root and a plain index name that no directory has as symbolic link, every request", "why_tests_cant": "It must hold for every request path, percent-encoding, file tree and configuration; tests try a few traversal strings.", "anchors": ["src/qbm/http/middleware/static_files.h::process", "src/qbm/http/middleware/static_files.cpp::sanitize_and_resolve_path"]}
{"id": "C61", "title": "reject_symlinks serves only what the path literally names", "statement": "With reject_symlinks, a file answer comes from the directory entry reached from the root through exactly the names in the decoded request path (or its index file), none of which is a symbolic link.", "quantifier": "every file tree and request path without `..` segments", "why_tests_cant": "It must hold for every arrangement of links and every spelling of the path.", "anchors": ["src/qbm/http/middleware/static_files.h::process 345-376"]}
{"id": "C62", "title": "Byte ranges follow RFC 9110", "statement": "A Range field selects exactly the octets RFC 9110 says a single bytes range selects; the 206 answer carries exactly those octets with the matching Content-Range and Content-Length, and a range that selects nothing is answered 416 with the size and no content.", "quantifier": "every Range value, file size and content", "why_tests_cant": "Boundary arithmetic over all numerals, sizes and spellings of a range.", "anchors": ["src/qbm/http/middleware/static_files.cpp::parse_byte_range", "src/qbm/http/middleware/static_files.h::process 600-645"]}
{"id": "C63", "title": "Conditional requests compare entity tags weakly", "statement": "If-None-Match matches a file exactly when one of the listed entity tags has the file's opaque tag (weak comparison) or the field is `*`; a 304 answer has no content and is given only for a matching tag or an If-Modified-Since date that is not older than the file.", "quantifier": "every If-None-Match list, file size, time and content", "why_tests_cant": "All lists, white space, weak markers and tags must be treated alike.", "anchors": ["src/qbm/http/middleware/static_files.cpp::if_none_match_contains", "src/qbm/http/middleware/static_files.h::process 472-530"]}
{"id": "C64", "title": "A plain request gets the file", "statement": "A GET for the plain path of a readable regular file under the root, not above max_file_size, is answered 200 with exactly the file's octets and length (206/416 by its Range); HEAD gets the same status and headers without the content; no content answer exceeds max_file_size.", "quantifier": "every file tree, path of plain names, content and configuration", "why_tests_cant": "It ranges over all file contents, names and option combinations.", "anchors": ["src/qbm/http/middleware/static_files.h::process"]}
{"id": "C65", "title": "Deferred finalisation", "statement": "While a finalisation-deferral scope is open on a request, no completion, cancellation, error or exception finalises it; closing the last scope finalises it, with the then current status, exactly when a finalisation was requested meanwhile.", "quantifier": "every nesting of scopes and every sequence of calls by tasks, hooks and outside callers", "why_tests_cant": "ranges over all call histories inside a scope", "anchors": ["src/qbm/http/routing/context.h::ScopedFinalizationDeferral", "src/qbm/http/routing/context.h::finalize_processing_internal"]}
{"id": "C66", "title": "Set-Cookie serialization cannot be injected", "statement": "Serializing a cookie succeeds exactly when its name is a non-empty RFC token and its value, domain and path contain no semicolon and no control character; the text produced is then exactly name=value followed by the attributes that are set, so no cookie content can add an attribute, end the header or start another one.", "quantifier": "every cookie (any bytes in name, value, domain, path; any attributes)", "why_tests_cant": "the byte strings are unbounded; injection needs one missed byte", "anchors": ["src/qbm/http/cookie.cpp::Cookie::to_header, validate_cookie_for_serialization"]}
{"id": "C67", "title": "Set-Cookie round trip", "statement": "A serialized cookie, parsed again, is the same cookie (its expiry truncated to seconds).", "quantifier": "every serializable cookie", "why_tests_cant": "round trips over unbounded strings and dates", "anchors": ["src/qbm/http/cookie.cpp::Cookie::to_header, parse_set_cookie"]}
{"id": "C68", "title": "Set-Cookie parsing follows the attribute rules", "statement": "A Set-Cookie header is refused exactly if its first field has no name; otherwise name and value come from the first field, flags are set exactly if present, and each valued attribute takes the last readable occurrence, names being compared without case.", "quantifier": "every byte string as header", "why_tests_cant": "arbitrary sequences of attributes, spellings and separators", "anchors": ["src/qbm/http/cookie.cpp::parse_set_cookie"]}
{"id": "C69", "title": "Cookie header parsing", "statement": "Every well-formed Cookie header is accepted and yields the first value of each name; quoted values are read back exactly; whatever the header, entries have proper bounded names and values, names are distinct up to case, oversized headers, unterminated quotes and (outside backslash escapes) control characters are refused.", "quantifier": "every byte string as Cookie header, every list of cookies rendered", "why_tests_cant": "a character-level state machine over unbounded input", "anchors": ["src/qbm/http/cookie.cpp::parse_cookies, is_cookie_attribute"]}
{"id": "C70", "title": "Cookie jar semantics", "statement": "After any history of adding and removing cookies the jar holds for each name, up to case, what the last call about it left; the jar of a parsed message agrees with its headers; writing a cookie back to a response replaces exactly that cookie's Set-Cookie headers.", "quantifier": "every history of calls and every list of headers", "why_tests_cant": "histories are unbounded", "anchors": ["src/qbm/http/cookie.h::CookieJar", "src/qbm/http/request.cpp::Request::parse_cookie_header", "src/qbm/http/response.cpp::Response::parse_set_cookie_headers, update_cookie_header"]}
{"id": "C71", "title": "HTTP/1.1 messages are unambiguous on the wire", "statement": "A byte string can be read as an HTTP/1.1 message (start line, header fields, body delimited by Content-Length or the chunked coding) in at most one way: start line, fields, body and what is left after it are determined.", "quantifier": "every byte string and every two readings of it", "why_tests_cant": "the claim is about all byte strings and all pairs of parses", "anchors": ["src/qbm/http/request.cpp::put<Request>", "src/qbm/http/response.cpp::put<Response>"]}
{"id": "C72", "title": "Requests are serialized as themselves", "statement": "A request that is serialized is on the wire its request line, exactly its own header fields (plus a content-length if it has a body and declares no framing) and a payload from which a recipient takes exactly the body; header names and values cannot add fields, and requests with invalid headers, contradictory framing or excessive size are refused and nothing is written.", "quantifier": "every request (method, target, header map, body) and every byte string that follows it", "why_tests_cant": "unbounded header maps and bodies", "anchors": ["src/qbm/http/request.cpp::put<Request>", "src/qbm/http/body.cpp::put<Chunk>"]}
{"id": "C73", "title": "Responses are serialized as themselves and self-delimiting", "statement": "A serialized response is its status line, its own fields (plus content-length if it declares no framing) and a payload that delimits exactly the body; 1xx, 204 and 304 responses carry nothing after the header section, no Transfer-Encoding, and (1xx, 204) no non-zero Content-Length; inconsistent responses are refused.", "quantifier": "every response and every following byte string", "why_tests_cant": "unbounded header maps and bodies", "anchors": ["src/qbm/http/response.cpp::put<Response>"]}
{"id": "C74", "title": "Pipelined requests stay separate", "statement": "Requests written one after the other on a connection are read back as exactly those requests in order and in no other way.", "quantifier": "every list of requests", "why_tests_cant": "unbounded sequences", "anchors": ["src/qbm/http/request.cpp::put<Request>"]}
{"id": "C75", "title": "The message head is assembled independently of fragmentation", "statement": "However the request target, header names and header values are reported in fragments, the head is refused exactly if it exceeds 8192 target octets, 100 fields, 1024-octet names, 8192-octet values, declares Transfer-Encoding together with Content-Length or other than exactly chunked, or a body over 100 MiB; otherwise the message has exactly that target, those fields in order and that body length.", "quantifier": "every fragmentation of every head", "why_tests_cant": "all possible splits of all heads", "anchors": ["src/qbm/http/1.1/protocol/base.h::Parser::on_url", "src/qbm/http/1.1/protocol/base.h::Parser::on_header_field", "src/qbm/http/1.1/protocol/base.h::Parser::on_headers_complete"]}
{"id": "C76", "title": "Bodies are the concatenation of their fragments", "statement": "The body of a message is exactly the concatenation of the reported fragments, independent of their boundaries; target and fields are those of the head.", "quantifier": "every sequence of body fragments", "why_tests_cant": "all possible splits", "anchors": ["src/qbm/http/1.1/protocol/base.h::Parser::on_body", "src/qbm/http/1.1/protocol/base.h::Parser::on_message_complete"]}
{"id": "C77", "title": "Header fields come from the head of the message", "statement": "The header fields of a received message are those of its head; what follows the body does not change them.", "quantifier": "every message with trailers", "why_tests_cant": "histories of parser events", "anchors": ["src/qbm/http/1.1/protocol/base.h::Parser::on_header_field"]}
{"id": "C78", "title": "HTTP/1.1 connections do not depend on read boundaries", "statement": "The messages delivered from an HTTP/1.1 connection, their bodies and whether it is refused are the same however the byte stream is split into reads.", "quantifier": "every byte stream and every way of splitting it", "why_tests_cant": "all splits of all streams; the parser keeps offsets between reads", "anchors": ["src/qbm/http/1.1/protocol/base.h::base::getMessageSize"]}
{"id": "C79", "title": "The rate limit holds in every interval", "statement": "Whatever requests, sweeps and operator actions interleave, a client whose record the operator does not wipe gets at most 2*max_requests requests through in any interval as long as the window (the guarantee of a fixed window), and at most max_requests within a window of its first request.", "quantifier": "all options, histories of requests of any clients, sweeps and resets, and all clock readings that do not go back", "why_tests_cant": "the bound must hold for every interleaving and every position of the interval; eviction of stale records could silently hand out a new quota", "anchors": ["src/qbm/http/middleware/rate_limit.h::process", "src/qbm/http/middleware/rate_limit.h::evict_stale_entries_internal"]}
{"id": "C80", "title": "Nobody is refused early", "statement": "If a request is refused for lack of quota, at least max_requests requests of the same client were passed on within the last window (up to the millisecond to which the code rounds).", "quantifier": "all histories, clients and clock readings", "why_tests_cant": "needs every history that ends in a refusal", "anchors": ["src/qbm/http/middleware/rate_limit.h::process"]}
{"id": "C81", "title": "The limiter uses bounded memory and refuses newcomers only when really full", "statement": "At most 100000 clients are remembered, and 503 is answered only if 100000 other clients made a request within the last window.", "quantifier": "all histories", "why_tests_cant": "filling the table in a test shows one history; stale records must never count in any", "anchors": ["src/qbm/http/middleware/rate_limit.h::process", "src/qbm/http/middleware/rate_limit.h::evict_stale_entries_internal"]}
{"id": "C82", "title": "Clients do not influence each other", "statement": "The verdicts and headers a client gets do not depend on the requests of other clients, on sweeps or on resets of other clients, unless the table is full.", "quantifier": "all histories and clients", "why_tests_cant": "a non-interference property over all pairs of histories", "anchors": ["src/qbm/http/middleware/rate_limit.h::process"]}
{"id": "C83", "title": "The rate limit headers tell the truth", "statement": "X-RateLimit-Remaining more requests are not refused whatever happens next; with Remaining 0 every request before X-RateLimit-Reset seconds is refused; a client that waits for Reset+1 seconds is served.", "quantifier": "all histories before and after the response", "why_tests_cant": "a statement about every future of a response", "anchors": ["src/qbm/http/middleware/rate_limit.h::add_rate_limit_headers", "src/qbm/http/middleware/rate_limit.h::process"]}
{"id": "C84", "title": "Who a client is", "statement": "For a session with a peer address and no opt-in, the client is that address, whatever the request headers are; with the opt-in it is CF-Connecting-IP, else True-Client-IP, else the last element of X-Forwarded-For whatever precedes it; identifiers over 256 octets are refused and leave no trace.", "quantifier": "all header values and sessions", "why_tests_cant": "an attacker chooses the headers", "anchors": ["src/qbm/http/middleware/rate_limit.h::extract_client_id"]}
{"id": "C85", "title": "The cross-origin rule configured last decides", "statement": "However the CORS options were configured and queried before, an origin is let in exactly if the rule configured last permits it: origins listed literally (octet by octet) or all if * is listed, those matched by one of the first 100 usable patterns, or those the matcher accepts; never an empty origin or one over 2048 octets. Reconfiguring never leaves anything of an earlier rule or of the compiled-pattern cache in force.", "quantifier": "all option histories, rules, regex engines, matchers (also throwing ones) and origins", "why_tests_cant": "a stale cache shows up only after particular histories of configuration and use", "anchors": ["src/qbm/http/middleware/cors.cpp::is_origin_allowed", "src/qbm/http/middleware/cors.cpp::ensure_patterns_compiled", "src/qbm/http/middleware/cors.h::origins", "src/qbm/http/middleware/cors.h::origin_patterns", "src/qbm/http/middleware/cors.h::origin_matcher"]}
{"id": "C86", "title": "Cross-origin grants are exactly what was configured", "statement": "A response carries Access-Control-Allow-Origin exactly if the request has an Origin the rule permits - the origin itself, or * only when * is listed and credentials are off - and Access-Control-Allow-Credentials exactly if it is permitted and credentials are on; * is never sent with credentials; every response to a request with an Origin has Vary: Origin, granted or not.", "quantifier": "all options, option histories, requests and responses", "why_tests_cant": "a single leaked grant is a security hole; a missing Vary poisons shared caches on the untested path", "anchors": ["src/qbm/http/middleware/cors.h::process"]}
{"id": "C87", "title": "Preflights are answered exactly, other requests pass", "statement": "The middleware answers the request itself exactly if it is OPTIONS with a permitted Origin and an Access-Control-Request-Method: 204 with the configured methods, the allowed among the requested headers and the max age if the method is configured, 403 without any of them otherwise; everything else is passed on with at most Access-Control-Expose-Headers added.", "quantifier": "all options, requests and responses", "why_tests_cant": "ranges over all header lists a browser or attacker may send", "anchors": ["src/qbm/http/middleware/cors.h::process"]}
{"id": "C88", "title": "An HTTP/2 server never overruns the client's flow-control windows", "statement": "Whatever frames arrive and whatever the application does, the octets of DATA an HTTP/2 server connection has written never exceed 65535 plus what WINDOW_UPDATE frames on stream 0 granted, and on each client stream never exceed the stream's initial window (65535 or as announced by SETTINGS_INITIAL_WINDOW_SIZE) plus what WINDOW_UPDATE frames on that stream granted.", "quantifier": "all sequences of client frames, application calls, handler behaviours, idle cleanups, HPACK codecs and hash-map iteration orders", "why_tests_cant": "overruns need particular interleavings of settings changes, window updates and several responses", "anchors": ["src/qbm/http/2/protocol/server.h::send_response_body", "src/qbm/http/2/protocol/server.h::try_send_pending_data_for_stream", "src/qbm/http/2/protocol/server.h::update_initial_peer_window_size", "src/qbm/http/2/protocol/server.h::on(WindowUpdateFrame)"]}
{"id": "C89", "title": "GOAWAY is sent once and tells the truth", "statement": "An HTTP/2 server connection sends at most one GOAWAY; after it no request is handed to the application; every request ever handed over is on an odd stream whose number is at most the last stream number that GOAWAY names, so a client can safely retry the higher ones.", "quantifier": "all sequences of client frames and application calls", "why_tests_cant": "connection errors can occur inside any other operation, also re-entrantly from handlers", "anchors": ["src/qbm/http/2/protocol/server.h::send_goaway_and_close", "src/qbm/http/2/protocol/server.h::dispatch_complete_request", "src/qbm/http/2/protocol/server.h::on(HeadersFrame)"]}
{"id": "C90", "title": "HTTP/2 responses are well formed on the wire", "statement": "When the application answers a request once, the frames an HTTP/2 server writes on that stream are one HEADERS and then DATA carrying a prefix of the response body, complete when END_STREAM is set; nothing is written on a stream before it is answered; nothing follows END_STREAM; no DATA frame is larger than 16384 octets and the SETTINGS_MAX_FRAME_SIZE values the client announced.", "quantifier": "all sequences of client frames, application calls, handler behaviours, idle cleanups, HPACK codecs and hash-map iteration orders", "why_tests_cant": "the body is sent in pieces from several entry points as windows open, interleaved with other streams, resets and settings", "anchors": ["src/qbm/http/2/protocol/server.h::send_response", "src/qbm/http/2/protocol/server.h::send_response_body", "src/qbm/http/2/protocol/server.h::try_send_pending_data_for_stream"]}
{"id": "C91", "title": "An HTTP/2 response never stalls while there is window", "statement": "A response to a request, unless its stream is reset, reaches the client: answering a dispatched request writes at least its HEADERS; a response body stops only when the octets sent have used up the connection window or the stream window that the client granted; once the client has granted enough of both, the whole body and END_STREAM have been written.", "quantifier": "all sequences of client frames, application calls, handler behaviours, idle cleanups, HPACK codecs and hash-map iteration orders", "why_tests_cant": "sending resumes from WINDOW_UPDATE, SETTINGS and other streams finishing; a lost wake-up shows only in particular interleavings of these", "anchors": ["src/qbm/http/2/protocol/server.h::send_response", "src/qbm/http/2/protocol/server.h::try_send_pending_data_for_stream", "src/qbm/http/2/protocol/server.h::try_send_pending_data_for_all_streams"]}
{"id": "C93", "title": "An HTTP/2 server bounds the requests in progress", "statement": "A client has never more than 50 requests in progress on one HTTP/2 connection: when 50 are in progress a further HEADERS frame opening a stream is answered only by RST_STREAM with REFUSED_STREAM, and the connection goes on.", "quantifier": "all sequences of client frames, application calls, handler behaviours, idle cleanups, HPACK codecs and hash-map iteration orders", "why_tests_cant": "the limit counts streams in several states, over any history of opening, finishing, resetting and cleaning up", "anchors": ["src/qbm/http/2/protocol/server.h::on(const HeadersFrame)", "src/qbm/http/2/protocol/server.h::get_active_client_initiated_stream_count"]}
{"id": "C94", "title": "HTTP/2 requests reach the application exactly as sent", "statement": "Every request an HTTP/2 server hands to the application belongs to one client stream, is handed over once, only after the client ended the stream, with a body that is exactly the payload of the DATA frames the client sent on that stream, and with a head that satisfies RFC 9113: the four pseudo-headers exactly once and first, no connection-specific fields, a content-length equal to the body length; and a valid head is never rejected.", "quantifier": "all sequences of client frames, application calls, handler behaviours, idle cleanups, HPACK codecs and hash-map iteration orders", "why_tests_cant": "frames of many streams interleave; the body is collected from any number of DATA frames, and rejected frames, resets, trailers and CONTINUATION change the path taken", "anchors": ["src/qbm/http/2/protocol/server.h::on(const DataFrame)", "src/qbm/http/2/protocol/server.h::process_complete_header_block", "src/qbm/http/2/protocol/server.h::dispatch_complete_request"]}
{"id": "C92", "title": "The HTTP/2 server enforces and replenishes its receive windows", "statement": "A connection that still processes frames has accepted no more DATA than 65535 octets plus the WINDOW_UPDATEs it wrote; DATA beyond that ends the connection with FLOW_CONTROL_ERROR; while a request is being received, DATA beyond what was granted for its stream is answered by RST_STREAM with FLOW_CONTROL_ERROR, DATA within both windows never causes a flow-control or connection error, and the client is always left with room to go on, on the stream and on the connection.", "quantifier": "all sequences of client frames (DATA of every size and padding on any streams), application calls, handler behaviours, cleanups and HPACK codecs", "why_tests_cant": "the windows are sums over the whole history of the connection, and replenishing is triggered by thresholds that interleaved streams reach at different times", "anchors": ["src/qbm/http/2/protocol/server.h::on(const DataFrame)", "src/qbm/http/2/protocol/server.h::conditionally_send_connection_window_update", "src/qbm/http/2/protocol/server.h::send_window_update"]}
{"id": "C95", "title": "HTTP/2 floods are cut off and ordinary clients are not", "statement": "Without DATA or HEADERS in between, the server answers at most 1000 PING and SETTINGS frames; a connection that is still served has seen at most 512 CONTINUATION frames and 1 MiB of header block since the last HEADERS frame; a client that reset more than 100 streams and more than half of the streams it could have opened is no longer served; a client with at most 100 resets is not disconnected for it, and a PING on a working connection is answered with its own octets as long as fewer than 1000 replies were written.", "quantifier": "all sequences of client frames, application calls, handler behaviours, cleanups and HPACK codecs", "why_tests_cant": "the counters accumulate over the whole life of a connection and are reset by some frames only", "anchors": ["src/qbm/http/2/protocol/server.h::on(const PingFrame)", "src/qbm/http/2/protocol/server.h::on(const SettingsFrame)", "src/qbm/http/2/protocol/server.h::on(const ContinuationFrame)", "src/qbm/http/2/protocol/server.h::on(const RstStreamFrame)"]}
{"id": "C96", "title": "The HTTP/2 server keeps its header compression in step with the client", "statement": "On a connection that is still served, every header block the client completed has been run through the HPACK decoder, in order, so later blocks are decoded with the table the client encoded them against.", "quantifier": "all sequences of client frames, application calls, handler behaviours, cleanups and HPACK codecs", "why_tests_cant": "one skipped block changes how every later block is decoded, and whether it matters depends on what the client puts into its table", "anchors": ["src/qbm/http/2/protocol/server.h::on(const HeadersFrame)", "src/qbm/http/2/protocol/server.h::on(const ContinuationFrame)", "src/qbm/http/2/protocol/server.h::process_complete_header_block"]}
{"id": "C97", "title": "A throwing HTTP/2 request handler costs only its own request", "statement": "When the handler of a request throws, the client gets RST_STREAM with INTERNAL_ERROR for this request at once, the connection stays usable, the stream no longer counts towards any limit, and every other request is as it was.", "quantifier": "all sequences of client frames, application calls, handler behaviours, cleanups and HPACK codecs", "why_tests_cant": "it is about every state of the connection in which a handler can throw, with any number of other requests in any state", "anchors": ["src/qbm/http/2/protocol/server.h::dispatch_complete_request", "src/qbm/http/2/protocol/server.h::send_rst_stream", "src/qbm/http/2/protocol/server.h::on(const DataFrame)"]}
{"id": "C98", "title": "A client that announces its departure still gets its answers", "statement": "After GOAWAY with NO_ERROR from the client, the requests in progress are carried on and the connection is served until they are finished.", "quantifier": "all sequences of client frames, application calls, handler behaviours, cleanups and HPACK codecs", "why_tests_cant": "which requests are in progress when GOAWAY arrives is a matter of timing", "anchors": ["src/qbm/http/2/protocol/server.h::on(const GoAwayFrame)", "src/qbm/http/2/protocol/server.h::are_all_relevant_streams_closed"]}
{"id": "C99", "title": "Server push respects the client", "statement": "PUSH_PROMISE is written only on a working connection, only while the client allows it, on the stream of a request in progress and with a fresh even number, and the promised request can then be answered like any other.", "quantifier": "all sequences of client frames, application calls, handler behaviours, cleanups and HPACK codecs", "why_tests_cant": "SETTINGS that forbid or allow pushes arrive at any time, and pushes can be made inside a handler or from elsewhere", "anchors": ["src/qbm/http/2/protocol/server.h::send_push_promise", "src/qbm/http/2/protocol/server.h::on(const SettingsFrame)", "src/qbm/http/2/protocol/server.h::send_response"]}
{"id": "C100", "title": "The auth middleware lets through exactly the authenticated and authorised", "statement": "AuthMiddleware passes a request on with a user exactly if an earlier middleware established this user, or nobody was established and the request presents a token that verifies for this user, and the user has the required roles; it passes a request without a user only if authentication is optional and there is no token; every other request is answered 401 (nobody authenticated) or 403 (roles missing).", "quantifier": "all header values, tokens, JWT libraries, configurations, clocks and earlier middlewares", "why_tests_cant": "a gate is only worth what it does with the token nobody tried", "anchors": ["src/qbm/http/middleware/auth.h::AuthMiddleware::process", "src/qbm/http/middleware/auth.h::user_from_jwt_payload", "src/qbm/http/auth/user.cpp::has_any_role"]}
{"id": "C101", "title": "A role gate takes its user from the middleware before it", "statement": "role_auth_middleware lets through only users established by an earlier middleware, with the roles.", "quantifier": "all header values, tokens, JWT libraries, configurations, clocks and earlier middlewares", "why_tests_cant": "the dangerous case is a token signed with a key nobody configured", "anchors": ["src/qbm/http/middleware/auth.h::role_auth_middleware", "src/qbm/http/auth/manager.cpp::verify_token"]}
{"id": "C102", "title": "A token verifies for the user it was made for", "statement": "verify_token on a token of generate_token returns the same identifier, user name, roles and metadata.", "quantifier": "all users, options and times, for any JWT library that returns the claims put in", "why_tests_cant": "identifiers are arbitrary strings; the special ones (JSON texts) are easily missed", "anchors": ["src/qbm/http/auth/manager.cpp::generate_token", "src/qbm/http/auth/manager.cpp::verify_token"]}
{"id": "C103", "title": "Credentials are taken from a header exactly", "statement": "The token found in a header value is exactly the one in: blanks, scheme in any case, blanks, token, blanks; any other value yields no token.", "quantifier": "all header values and schemes", "why_tests_cant": "there are infinitely many malformed values", "anchors": ["src/qbm/http/auth/manager.cpp::extract_token_from_header", "src/qbm/http/middleware/jwt.h::extract_token"]}
{"id": "C104", "title": "With signatures switched off the claims are still enforced", "statement": "A token whose signature is not checked is accepted exactly if it is not expired, already active, and from the configured issuer and for the configured audience where these checks are on, and it names a user.", "quantifier": "all payloads, options and clocks", "why_tests_cant": "times are 64-bit numbers or numerals, with extreme values", "anchors": ["src/qbm/http/auth/manager.cpp::verify_token", "src/qbm/http/auth/manager.cpp::parse_time_claim_as_int64"]}
{"id": "C105", "title": "Algorithm and key come from the configuration only", "statement": "A token is accepted only if the JWT library accepts it under the configured algorithm, the key configured for this kind of algorithm, and the configured checks; for JwtMiddleware moreover only from the configured place, not issued in the future, with the required claims and the consent of the validator, and the claims passed on are those of this token; everything else is answered 401 or 500.", "quantifier": "all header values, tokens, JWT libraries, configurations, clocks and earlier middlewares", "why_tests_cant": "algorithm confusion shows only with the attacker's token", "anchors": ["src/qbm/http/auth/manager.cpp::verify_token", "src/qbm/http/auth/options.cpp::algorithm_from_string", "src/qbm/http/middleware/auth.h::jwt_auth_middleware", "src/qbm/http/middleware/jwt.h::JwtMiddleware::process"]}
{"id": "C106", "title": "The subject of a JWT is the user behind the JWT middleware", "statement": "An AuthMiddleware after a JwtMiddleware sees the subject, user name and roles of the token as its user.", "quantifier": "all verified claims", "why_tests_cant": "subjects are arbitrary strings and those that look like numbers are handled differently", "anchors": ["src/qbm/http/middleware/jwt.h::verify_token", "src/qbm/http/middleware/auth.h::user_from_jwt_payload"]}
{"id": "C107", "title": "Header attributes are read exactly as written", "statement": "parse_header_attributes returns exactly the attributes a value writes (names, plain values without surrounding blanks, quoted values with escapes undone, separators ; and ,) and throws exactly on values that do not fit this grammar or its limits; the meaning of a value is unique, contains no control character, and the first attribute of a name counts.", "quantifier": "all header values", "why_tests_cant": "the interplay of quotes, escapes, separators and limits is an infinite language", "anchors": ["src/qbm/http/headers.cpp::parse_header_attributes"]}
{"id": "C108", "title": "The content type is read exactly", "statement": "ContentType::parse returns the trimmed text before the first semicolon and the charset attribute behind it, with the documented defaults, for every value, and never throws.", "quantifier": "all header values", "why_tests_cant": "malformed attributes must fall back, whatever they are", "anchors": ["src/qbm/http/headers.cpp::Headers::ContentType::parse"]}
{"id": "C109", "title": "The encoding selected is the one the client likes best", "statement": "For every Accept-Encoding header the compression middleware selects the server encoding with the highest non-zero quality (first mention of the name, else the last *), the first preferred among equals, and none exactly if the client accepts none; qualities are read as RFC 9110 writes them.", "quantifier": "all header values and all lists of encodings", "why_tests_cant": "headers are client-made; the ties and refusals have to come out right for all of them", "anchors": ["src/qbm/http/middleware/compression.h::select_best_encoding"]}
{"id": "C110", "title": "content_encoding answers with something acceptable", "statement": "content_encoding returns an algorithm of the server that the header lists with a non-zero quality, decided by the first usable element, and nothing exactly if there is no such element; it never returns a refused encoding.", "quantifier": "all header values and all lists of algorithms", "why_tests_cant": "the order of elements matters in ways examples miss", "anchors": ["src/qbm/http/headers.cpp::content_encoding", "src/qbm/http/headers.cpp::parse_accept_encoding_q"]}
{"id": "C111", "title": "A compressed response is the same response", "statement": "The compression middleware sends the response as it was, or in a coding the client accepts that decodes to the same octets, is shorter, and is declared by Content-Encoding, Vary and Content-Length; everything else of the response is kept.", "quantifier": "all bodies, headers, options, Accept-Encoding headers and all behaviours of the compression library within its contract", "why_tests_cant": "how the library divides its work into calls depends on the data; a lost tail shows only for some bodies", "anchors": ["src/qbm/http/middleware/compression.h::compress_response_body", "src/qbm/http/body.cpp::Body::compress", "src/qbm/http/body.cpp::Body::get_compressor_from_header"]}
{"id": "C112", "title": "Decompressing a request is bounded and exact", "statement": "A decompressed request body is the whole content of the stream and at most 100 MiB, with at most twice the compressed size allocated beyond that; a request passed on carries it without Content-Encoding and with the right Content-Length; a stream that cannot be decompressed is answered 400 or 500 and not passed on.", "quantifier": "all bodies, headers and behaviours of the library, including hostile streams", "why_tests_cant": "a decompression bomb is an input, not a test", "anchors": ["src/qbm/http/body.cpp::Body::uncompress", "src/qbm/http/body.cpp::Body::get_decompressor_from_header", "src/qbm/http/middleware/compression.h::decompress_request_body", "src/qbm/http/middleware/compression.h::CompressionMiddleware::process"]}
{"id": "C113", "title": "A multipart body is read as its parts", "statement": "Body::as<Multipart> returns, for every well-formed multipart body within the limits, exactly its parts in order: the data octet for octet and under every name the values of the header lines of that name in order (for Content-Type the first); it throws exactly if the limits are exceeded.", "quantifier": "all boundaries, all well-formed bodies, including data full of near-delimiters", "why_tests_cant": "near-delimiters in data drive the search, the comparison and the look-behind buffer through unboundedly many paths", "anchors": ["src/qbm/http/body.cpp::Body::as<Multipart>", "src/qbm/http/multipart.cpp::MultipartParser::feed", "src/qbm/http/multipart.cpp::MultipartParser::processPartData"]}
{"id": "C114", "title": "A multipart body that is written is read back", "statement": "Serialising a Multipart succeeds exactly if boundary, header names and values are safe, writes content_length() octets, and reading the result gives the same boundary, parts, data and header values (unless data contains the delimiter, a value starts with a space, or there are no parts).", "quantifier": "all multipart objects", "why_tests_cant": "data is arbitrary; injection through headers is an input", "anchors": ["src/qbm/http/multipart.cpp::pipe<char>::put<Multipart>", "src/qbm/http/multipart.h::Multipart::content_length", "src/qbm/http/body.cpp::Body::as<Multipart>"]}
{"id": "C115", "title": "Multipart limits hold", "statement": "Whatever body is accepted as multipart, it has at most 1000 parts, 100 MiB of data, header names of 1024 and values of 8192 octets, and a boundary of 1 to 70 characters without control characters.", "quantifier": "all octet strings", "why_tests_cant": "limits are for hostile input", "anchors": ["src/qbm/http/body.cpp::MultipartReader", "src/qbm/http/multipart.h::multipart_limits"]}
{"id": "C116", "title": "Feeding a multipart body in pieces changes nothing", "statement": "However a body is cut into calls of feed, the parser reports the same octets to the same callbacks in the same order, meets the same errors and succeeds or not alike (unless octets follow the closing delimiter or a header line has no colon).", "quantifier": "all bodies and all ways of cutting them", "why_tests_cant": "the marks, the index and the look-behind buffer carry the state across calls at every possible cut", "anchors": ["src/qbm/http/multipart.cpp::MultipartParser::feed", "src/qbm/http/multipart.cpp::MultipartParser::processPartData"]}
{"id": "C117", "title": "The multipart parser stays within its buffers", "statement": "Whatever the boundary and whatever octets are fed in whatever pieces, the parser never accesses memory outside its buffers, and reading a body never appends data to a part that does not exist.", "quantifier": "all boundaries, all octet strings, all ways of cutting them", "why_tests_cant": "memory safety is about all inputs", "anchors": ["src/qbm/http/multipart.cpp::MultipartParser::feed", "src/qbm/http/body.cpp::Body::as<Multipart>"]}
{"id": "C118", "title": "The boundary is found exactly", "statement": "parse_boundary returns the first boundary attribute of a multipart/form-data content type, throws exactly if the attributes are malformed or the boundary may not be used, and returns nothing otherwise; generated boundaries are always usable.", "quantifier": "all Content-Type values, all random draws", "why_tests_cant": "the language of attributes is infinite", "anchors": ["src/qbm/http/multipart.cpp::parse_boundary", "src/qbm/http/multipart.cpp::Multipart::generate_boundary"]}
{"id": "C119", "title": "Forms are read exactly and survive a round trip", "statement": "Body::as<Form> gives under every non-empty name the decoded values of the pairs of that name in order; a form that is written is read back under every non-empty name.", "quantifier": "all bodies, all forms, all percent codings that are invertible and safe", "why_tests_cant": "names and values are arbitrary octets", "anchors": ["src/qbm/http/body.cpp::Body::as<Form>", "src/qbm/http/body.cpp::Body::operator=<Form>", "src/qbm/http/form.h::Form::add"]}
{"id": "C120", "title": "Requests reach exactly the declared route, behind exactly its middlewares", "statement": "After compiling, a request runs the preferred route among all declared routes of its method whose path (the pieces of the enclosing groups and controller and of the route joined by slashes) matches; the chain is the middlewares of the enclosing groups outermost first in the order they were added, then those of the route, then its handler, nothing else; path parameters are percent-decoded; over 4096 octets of path nothing runs.", "quantifier": "all declaration trees (any nesting of groups, controllers, routes, any slashes), all request paths and methods", "why_tests_cant": "the declaration tree and the path are unbounded; slashes at the joints, nesting depth and re-declarations combine freely", "anchors": ["src/qbm/http/routing/handler_node.h::join_paths", "src/qbm/http/routing/route_group.h::RouteGroup::compile_tasks_and_register", "src/qbm/http/routing/controller.h::Controller::compile_tasks_and_register", "src/qbm/http/routing/route.h::Route::compile_tasks_and_register", "src/qbm/http/routing/router_core.h::RouterCore::route_request"]}
{"id": "C121", "title": "404 and 405 are told apart exactly, and Allow is exact", "statement": "A request is answered 405 exactly when no declared route of its method matches its path but some declared route does, and Allow then lists exactly the methods that would be served, each once; 404 exactly when no declared route matches at all.", "quantifier": "all declaration trees, paths and methods", "why_tests_cant": "needs agreement of two different tree searches on all trees", "anchors": ["src/qbm/http/routing/router_core.h::RouterCore::route_request", "src/qbm/http/routing/router_core.h::RouterCore::allowed_header_value"]}
{"id": "C122", "title": "404 and 405 answers pass the global middlewares", "statement": "A request that matches nothing runs the global middlewares in order and then the 404 handler (the one set by the user, else the default), also if that handler is set after compiling; a 405 runs the global middlewares and then the 405 handler. No request finds an empty chain.", "quantifier": "all declaration trees, handlers set before or after compiling", "why_tests_cant": "security middlewares rely on it for every unmatched path", "anchors": ["src/qbm/http/routing/router_core.h::RouterCore::compile_all_routes", "src/qbm/http/routing/router_core.h::RouterCore::set_not_found_handler", "src/qbm/http/routing/router_core.h::RouterCore::compile_default_not_found_handler"]}
{"id": "C123", "title": "compile() succeeds exactly on acceptable declarations and can be repeated", "statement": "compile() succeeds exactly when every declared route is well formed over its whole joined path, has a real method, and no two name one capture position differently; compiling again changes no answer and registers no controller route twice.", "quantifier": "all declaration trees", "why_tests_cant": "conflicts arise between any two routes anywhere in the tree", "anchors": ["src/qbm/http/routing/router_core.h::RouterCore::compile_all_routes", "src/qbm/http/routing/controller.h::Controller::compile_tasks_and_register", "src/qbm/http/routing/radix_tree.h::RadixTree::add_route"]}
{"id": "C124", "title": "Requests see everything declared before them", "statement": "Whatever the history of declarations, compilations, 404-handler changes, clears and requests, each request is answered according to everything declared before it.", "quantifier": "all histories of operations on a router and on the handles it returned", "why_tests_cant": "staleness depends on the order of operations", "anchors": ["src/qbm/http/routing/router.h::Router::route", "src/qbm/http/routing/router.h::Router::compile", "src/qbm/http/routing/router.h::Router::group"]}
{"id": "C125", "title": "No request is served from a half-built route table", "statement": "When a declared route is refused, requests throw rather than being dispatched on the part of the table that was built, until the router is cleared.", "quantifier": "all histories of operations", "why_tests_cant": "depends on where in the tree and when in the history the refusal happens", "anchors": ["src/qbm/http/routing/router.h::Router::route", "src/qbm/http/routing/router.h::Router::compile", "src/qbm/http/routing/router_core.h::RouterCore::compile_all_routes"]}
{"id": "C126", "title": "Every request of the HTTP/1.1 client is answered exactly once", "statement": "Each call of push_request with a callback has its callback invoked at most once; until then the client holds the request exactly once; no callback is invoked that was not registered.", "quantifier": "all interleavings of API calls (from outside or from callbacks, nested to any depth) and network events", "why_tests_cant": "the callbacks may call the client again at any point of its processing", "anchors": ["src/qbm/http/1.1/client.cpp::Client::push_request", "src/qbm/http/1.1/client.cpp::Client::handle_response", "src/qbm/http/1.1/client.cpp::Client::fail_all_requests"]}
{"id": "C127", "title": "disconnect() answers everything first", "statement": "When disconnect() or the destructor finishes, no request is held: all given so far, also those pushed meanwhile by the callbacks, were answered exactly once, and nothing was sent during it.", "quantifier": "all histories", "why_tests_cant": "as C126", "anchors": ["src/qbm/http/1.1/client.cpp::Client::disconnect", "src/qbm/http/1.1/client.cpp::Client::fail_all_requests"]}
{"id": "C128", "title": "Requests go out in order, one at a time, and responses go to the right request", "statement": "The HTTP/1.1 client hands requests to the connection in the order of the calls, each at most once, only when all those handed over before were completed; a response of the network completes the request handed over last.", "quantifier": "all histories", "why_tests_cant": "a mix-up needs a particular interleaving of timeouts, reconnections and callbacks", "anchors": ["src/qbm/http/1.1/client.cpp::Client::process_pending_requests", "src/qbm/http/1.1/client.cpp::Client::handle_response"]}
{"id": "C129", "title": "The limit of pending requests holds and the statistics are exact", "statement": "The client never holds more than the limit; a request over it gets 503 and an invalid one 400 at once without touching the others; successes, failures and held requests always add up to the calls.", "quantifier": "all histories", "why_tests_cant": "as C126", "anchors": ["src/qbm/http/1.1/client.cpp::Client::push_request", "src/qbm/http/1.1/client.h::Client::get_stats"]}
{"id": "C130", "title": "connect() callbacks are invoked at most once, all with the outcome", "statement": "Each connect callback is invoked at most once, is kept until then, and the end of an attempt takes all the callbacks waiting for it with its outcome.", "quantifier": "all histories", "why_tests_cant": "as C126", "anchors": ["src/qbm/http/1.1/client.cpp::Client::connect", "src/qbm/http/1.1/client.cpp::Client::handle_connection_success"]}
{"id": "C131", "title": "No queued request is forgotten", "statement": "Whenever the client is idle and requests are queued, a send, a connection attempt or a timer that will lead to it is under way.", "quantifier": "all histories", "why_tests_cant": "a lost wake-up shows only in the history that loses it", "anchors": ["src/qbm/http/1.1/client.cpp::Client::process_pending_requests", "src/qbm/http/1.1/client.cpp::Client::handle_disconnected", "src/qbm/http/1.1/client.cpp::Client::reset_deferred_connection_if_ready"]}
{"id": "C132", "title": "disconnect() returns", "statement": "disconnect() ends with all requests answered 503 in order and control back at the caller.", "quantifier": "all states and all callbacks", "why_tests_cant": "needs callbacks that call the client back", "anchors": ["src/qbm/http/1.1/client.cpp::Client::disconnect", "src/qbm/http/1.1/client.cpp::Client::fail_all_requests"]}
{"id": "C133", "title": "A batch is answered exactly once with the responses in order", "statement": "push_requests invokes its callback exactly once, when every request of the batch has its response, with the responses in the order of the requests, whatever the order of completion and the other batches.", "quantifier": "all mixtures of batches, sizes, completion orders, refusals", "why_tests_cant": "orders of completion are unbounded", "anchors": ["src/qbm/http/1.1/client.cpp::Client::push_requests", "src/qbm/http/2/client.cpp::Client::push_requests", "src/qbm/http/3/client.cpp::Client::push_requests"]}
{"id": "C134", "title": "A batch cut short reports errors for what was not answered", "statement": "When the connection fails, a batch under way reports the responses that came and an error for each request that got none.", "quantifier": "all mixtures of batches and failure points", "why_tests_cant": "depends on which requests were answered before the failure", "anchors": ["src/qbm/http/2/client.cpp::Client::fail_all_requests", "src/qbm/http/3/client.cpp::Client::fail_all_requests"]}
{"id": "C135", "title": "Same origin is decided exactly", "statement": "Two URIs have the same origin exactly when scheme and host agree up to ASCII case and both have the same port, a decimal number up to 65535 or the default of http, ws (80), https, wss (443); symmetric, transitive, reflexive on URIs with a port.", "quantifier": "all URIs", "why_tests_cant": "URIs are unbounded text; the check guards credentials", "anchors": ["src/qbm/http/origin.cpp::same", "src/qbm/http/origin.cpp::effective_port_number", "src/qbm/http/origin.cpp::effective_port"]}
{"id": "C136", "title": "Persistent clients send only to their own origin, and keep the user's headers", "statement": "A request is accepted only if the URI it is sent with (its own, or completed from the base when it has no host) has a host and the origin of the client, and https for HTTP/2 and HTTP/3; such a request is not refused. HTTP/1.1 adds Host, User-Agent and Accept-Encoding only where missing (in any case) and changes no other header; Host brackets IPv6 and omits a default port.", "quantifier": "all URIs, URI parsers, header lists", "why_tests_cant": "URIs and headers are unbounded", "anchors": ["src/qbm/http/1.1/client.cpp::Client::prepare_request", "src/qbm/http/1.1/client.cpp::Client::ensure_absolute_uri", "src/qbm/http/2/client.cpp::Client::prepare_request", "src/qbm/http/3/client.cpp::Client::prepare_request", "src/qbm/http/1.1/http.cpp::host_header_value"]}
{"id": "C137", "title": "Every request of the HTTP/2 client is answered exactly once, by its own response", "statement": "Each call of push_request with a callback has its callback invoked at most once; until then the client holds the request exactly once; a request is sent at most once over all connections; a response of the network completes the one request sent under its id.", "quantifier": "all interleavings of API calls (from outside or from callbacks, nested to any depth), network events and timers", "why_tests_cant": "the callbacks may call the client again at any point of its processing; requests are multiplexed", "anchors": ["src/qbm/http/2/client.cpp::Client::push_request", "src/qbm/http/2/client.cpp::Client::process_pending_requests", "src/qbm/http/2/client.cpp::Client::complete_request", "src/qbm/http/2/client.cpp::Client::fail_request", "src/qbm/http/2/client.cpp::Client::fail_all_requests"]}
{"id": "C138", "title": "The limits of the HTTP/2 client hold", "statement": "Never more requests are on the wire than the limit of concurrent streams; a request over the limit of pending requests gets 503 and an invalid one 400 at once without touching the others; the requests queued and on the wire are never more than the limit.", "quantifier": "all histories", "why_tests_cant": "as C137", "anchors": ["src/qbm/http/2/client.cpp::Client::push_request", "src/qbm/http/2/client.cpp::Client::process_pending_requests", "src/qbm/http/2/client.cpp::Client::check_request_timeouts"]}
{"id": "C139", "title": "The statistics of the HTTP/2 client are exact", "statement": "Whenever the client is idle, successes, failures and held requests add up to the calls, successes are the callbacks that got a response and failures those that got an error; within a callback the failures lag only by the refused sends under way.", "quantifier": "all histories", "why_tests_cant": "as C137", "anchors": ["src/qbm/http/2/client.cpp::Client::push_request", "src/qbm/http/2/client.cpp::Client::process_pending_requests", "src/qbm/http/2/client.cpp::Client::complete_request"]}
{"id": "C140", "title": "connect() callbacks of the HTTP/2 client are invoked at most once, all with the outcome", "statement": "Each connect callback is invoked at most once, is kept until then, and the end of an attempt, or a loss of the connection during it, takes all the callbacks waiting with its outcome.", "quantifier": "all histories", "why_tests_cant": "as C137", "anchors": ["src/qbm/http/2/client.cpp::Client::connect", "src/qbm/http/2/client.cpp::Client::handle_connection_success", "src/qbm/http/2/client.cpp::Client::handle_connection_failure"]}
{"id": "C141", "title": "GOAWAY without error is honoured", "statement": "After a GOAWAY without error nothing is sent until a new connection is up; exactly the requests on streams above the last one are failed with 503, the others stay on the wire; an idle client still connected has one of those; with automatic reconnection the queue survives and a new connection is attempted.", "quantifier": "all histories; all sets of requests on the wire", "why_tests_cant": "depends on which streams are open when GOAWAY arrives and on what the callbacks do", "anchors": ["src/qbm/http/2/client.cpp::Client::fail_active_requests_after_goaway", "src/qbm/http/2/client.cpp::Client::finish_graceful_goaway_if_drained"]}
{"id": "C142", "title": "No queued request of the HTTP/2 client is forgotten", "statement": "Whenever the client is idle, a request waits only if the connection is not up, a GOAWAY came on this connection, or the limit of concurrent streams is reached; no request is left on the wire of a connection that is gone.", "quantifier": "all histories", "why_tests_cant": "a lost wake-up shows only in the history that loses it", "anchors": ["src/qbm/http/2/client.cpp::Client::process_pending_requests", "src/qbm/http/2/client.cpp::Client::complete_request", "src/qbm/http/2/client.cpp::Client::fail_request"]}
{"id": "C143", "title": "The HTTP/2 client never uses a protocol object that is gone", "statement": "No history of calls, callbacks and events makes the client dereference a null protocol pointer.", "quantifier": "all histories", "why_tests_cant": "needs a callback that ends the connection in the middle of the send loop", "anchors": ["src/qbm/http/2/client.cpp::Client::process_pending_requests", "src/qbm/http/2/client.cpp::Client::disconnect"]}
{"id": "C144", "title": "The JSON schema validator accepts exactly the valid values", "statement": "For a well-formed schema nested at most 64 deep the validator does not throw and accepts a value exactly if it meets every keyword of the schema, by the one meaning the keywords have; and it reports an error exactly if the value is not valid.", "quantifier": "all schemas and values, of any size", "why_tests_cant": "schemas and values are nested to any depth and the keywords interact (types, properties, items, combinators)", "anchors": ["src/qbm/http/validation/schema_validator.cpp::SchemaValidator::validate_recursive", "src/qbm/http/validation/rule.cpp::TypeRule::validate"]}
{"id": "C145", "title": "The schema validator never rejects silently or accepts with errors", "statement": "For every schema, well formed or not and however deep, a run that returns says true exactly if it has reported no error.", "quantifier": "all schemas and values", "why_tests_cant": "errors of rejected alternatives (anyOf, oneOf, not) must not leak out, at any depth", "anchors": ["src/qbm/http/validation/schema_validator.cpp::SchemaValidator::validate"]}
{"id": "C146", "title": "escape_html makes text harmless without losing it", "statement": "The escaped text has no angle bracket or quote, each ampersand begins one of five character references, and reading it as HTML gives the text back.", "quantifier": "all texts", "why_tests_cant": "injection needs the one text that slips through", "anchors": ["src/qbm/http/validation/sanitizer.cpp::PredefinedSanitizers::escape_html"]}
{"id": "C147", "title": "trim, normalize_whitespace, the case functions and alphanumeric_only do exactly what they say", "statement": "trim removes the white space at both ends and nothing else; normalize_whitespace gives the words with single spaces; alphanumeric_only keeps all letters and digits in order and nothing else; the case functions change the ASCII letters of the other case only.", "quantifier": "all texts", "why_tests_cant": "any text", "anchors": ["src/qbm/http/validation/sanitizer.cpp::PredefinedSanitizers::trim", "src/qbm/http/validation/sanitizer.cpp::PredefinedSanitizers::normalize_whitespace", "src/qbm/http/validation/sanitizer.cpp::PredefinedSanitizers::alphanumeric_only", "src/qbm/http/validation/sanitizer.cpp::PredefinedSanitizers::to_lower_case"]}
{"id": "C148", "title": "strip_html_tags leaves no tags", "statement": "The result is a part of the text in its order; text outside tags stays; tags with any attributes (with > in quotes), comments and unterminated tags are removed; no < in the result is followed by a byte that can begin a tag.", "quantifier": "all texts", "why_tests_cant": "the state machine can be confused by texts nobody thought of", "anchors": ["src/qbm/http/validation/sanitizer.cpp::PredefinedSanitizers::strip_html_tags"]}
{"id": "C149", "title": "escape_sql_like makes a literal that matches the text only", "statement": "The escaped text between quotes is one complete SQL string literal, and as a LIKE pattern it matches the text and nothing else.", "quantifier": "all texts", "why_tests_cant": "injection needs the one text that slips through", "anchors": ["src/qbm/http/validation/sanitizer.cpp::PredefinedSanitizers::escape_sql_like"]}
{"id": "C150", "title": "A sanitizer changes the strings its path names and nothing else", "statement": "After sanitizing, a place named by the path (keys, indices, *) shows the function of the string that was there, every other place and every value that is not a string is as it was, and no place appears or disappears; the functions of a rule run in order.", "quantifier": "all JSON values, paths and functions", "why_tests_cant": "paths of any depth through values of any shape", "anchors": ["src/qbm/http/validation/sanitizer.cpp::Sanitizer::sanitize", "src/qbm/http/validation/sanitizer.cpp::Sanitizer::traverse_and_apply", "src/qbm/http/validation/sanitizer.cpp::split_path_for_sanitizer"]}
{"id": "C151", "title": "A parameter is accepted exactly if its text can be read as its type and its rules accept it", "statement": "An integer is read from the whole text as a decimal numeral of 64 bits, a boolean from true/1/false/0 without regard to case; the default stands for an absent value; an absent one without default is accepted exactly if it is not required; the value returned is the one read; in strict mode there is no other parameter; an error is reported exactly if something is rejected.", "quantifier": "all texts, definitions and maps of parameters, with rules that report when they reject", "why_tests_cant": "texts, rule lists and maps are unbounded", "anchors": ["src/qbm/http/validation/parameter_validator.cpp::ParameterValidator::parse_value", "src/qbm/http/validation/parameter_validator.cpp::ParameterValidator::validate_single", "src/qbm/http/validation/parameter_validator.cpp::ParameterValidator::validate"]}
{"id": "C152", "title": "Errors show no more of a value than the policy allows", "statement": "After any use of a result, with sub-results merged to any depth, no error shows anything of a value under None, nor under Preview a text, list or object longer than the budget (16 to 65536 bytes); what is shown is the beginning of what was there; errors are in the order they were added, none lost.", "quantifier": "all histories of add, clear and merge, all values", "why_tests_cant": "leaks show only for some value in some history", "anchors": ["src/qbm/http/validation/error.cpp::Result::apply_policy", "src/qbm/http/validation/error.cpp::Result::set_error_value_policy", "src/qbm/http/validation/error.cpp::Result::merge", "src/qbm/http/validation/error.cpp::Result::make_child"]}
{"id": "C153", "title": "A request passes validation exactly if its sanitized body, parameters and headers are valid", "statement": "The functions for a parameter run in order over each of its values, other values stay; then the request is accepted exactly if the sanitized body meets the schema, every value of every defined parameter, header and path parameter is valid and strict maps have no others; it is rejected with at least one error otherwise; the middleware lets exactly the accepted requests pass.", "quantifier": "all requests, validators and sanitizers", "why_tests_cant": "the order of sanitizing and validating, several values per name and unbounded maps", "anchors": ["src/qbm/http/validation/request_validator.cpp::RequestValidator::validate", "src/qbm/http/middleware/validation.h::ValidationMiddleware::process"]}
{"id": "C154", "title": "An HTTP/3 server delivers exactly the well formed requests", "statement": "A request is delivered exactly if it has the four pseudo header fields once each before the regular fields, none empty, a known method, names that are lower case tokens, values without control characters, no connection-specific field, at most 100 fields, content lengths equal to the size of the data, a body within the limit and trailers other than content-length and trailer; what is delivered is the method, address, fields, trailers and data that came, whatever the order of the events.", "quantifier": "all field sections, data pieces, trailers and orders of events, all limits", "why_tests_cant": "messages are unbounded and the order of the callbacks is the peer's choice", "anchors": ["src/qbm/http/3/protocol/connection.h::connection::recv_header_cb", "src/qbm/http/3/protocol/connection.h::connection::end_headers_cb", "src/qbm/http/3/protocol/connection.h::connection::recv_data_cb", "src/qbm/http/3/protocol/connection.h::connection::end_trailers_cb", "src/qbm/http/3/protocol/connection.h::connection::end_stream_cb", "src/qbm/http/3/protocol/connection.h::connection::materialize_headers"]}
{"id": "C155", "title": "An HTTP/3 client delivers exactly the well formed responses", "statement": "A response is delivered exactly if it has one status of 100 to 999 before valid regular fields, content lengths that agree and are the size of the data (unless HEAD or a status without content), a body within the limit and valid trailers; what is delivered is the status, data and fields that came with the final response.", "quantifier": "all field sections, interim responses, data pieces and trailers", "why_tests_cant": "messages are unbounded and the order of the callbacks is the peer's choice", "anchors": ["src/qbm/http/3/protocol/connection.h::connection::recv_header_cb", "src/qbm/http/3/protocol/connection.h::connection::end_headers_cb", "src/qbm/http/3/protocol/connection.h::connection::recv_data_cb", "src/qbm/http/3/protocol/connection.h::connection::end_stream_cb", "src/qbm/http/3/protocol/connection.h::connection::materialize_headers"]}
{"id": "C156", "title": "An HTTP/3 message is sent exactly if it is valid, and as it is", "statement": "A request or response is handed over exactly if its target, content lengths and fields are valid and its announced trailers are allowed and present; what is sent is the pseudo header fields, the lines with lower case names, a content length for a body if none was given, the body, and the announced lines as trailers; a message that is refused leaves nothing sent.", "quantifier": "all messages", "why_tests_cant": "header maps and bodies are unbounded", "anchors": ["src/qbm/http/3/protocol/connection.h::connection::submit_request", "src/qbm/http/3/protocol/connection.h::connection::submit_response", "src/qbm/http/3/protocol/connection.h::connection::make_request_headers", "src/qbm/http/3/protocol/connection.h::connection::make_response_headers", "src/qbm/http/3/protocol/connection.h::connection::make_trailers"]}
{"id": "C157", "title": "An HTTP/3 message that is sent arrives", "statement": "The peer that gets the fields, the body in any pieces and the trailers of a message that was sent delivers a message with the same method, address, status and body and the same values of every header but Host and Content-Length.", "quantifier": "all messages, all ways to split the body", "why_tests_cant": "round trips over unbounded header maps and all splits", "anchors": ["src/qbm/http/3/protocol/connection.h::connection::submit_request", "src/qbm/http/3/protocol/connection.h::connection::submit_response", "src/qbm/http/3/protocol/connection.h::connection::recv_header_cb", "src/qbm/http/3/protocol/connection.h::connection::end_stream_cb"]}
{"id": "C158", "title": "A stream carries one body, once, from a buffer that stays", "statement": "Whatever is submitted on a stream, in any order with the library's requests for data, at most one message is taken, what is handed out is a prefix of its body, all of it once the end is told, and the buffer the library points into never changes after.", "quantifier": "all histories of submissions and reads of a stream", "why_tests_cant": "a changed buffer shows only under some interleaving of submissions and reads", "anchors": ["src/qbm/http/3/protocol/connection.h::connection::submit_response", "src/qbm/http/3/protocol/connection.h::connection::submit_request", "src/qbm/http/3/protocol/connection.h::connection::read_data_cb"]}
{"id": "C159", "title": "Output is forwarded in order, once, and without use after free", "statement": "Whatever the library offers and whenever a call to the owner destroys the connection: the bytes forwarded on a stream are the beginning of what there was to send, in order and once; the end is forwarded at most once and after all bytes; the owner is told that a stream is out at most once and after its end; a destroyed connection is not touched; the owner is told of every stream that ended.", "quantifier": "all histories of offered output and of destructions of the connection", "why_tests_cant": "reentrant destruction inside a callback, and every split of the output into pieces", "anchors": ["src/qbm/http/3/protocol/connection.h::connection::drain"]}
{"id": "C160", "title": "Each HTTP/3 request is completed exactly once", "statement": "Whatever the user calls, from outside or inside callbacks, and whatever the endpoint reports and when, every request given to the persistent HTTP/3 client is completed exactly once or is still held; none is completed twice or dropped without its callback.", "quantifier": "all histories of calls (also from within callbacks), endpoint events (also from within sends and reads), timers", "why_tests_cant": "re-entrant callbacks at every point of every function and all interleavings with network events", "anchors": ["src/qbm/http/3/client.cpp::Client::push_request", "src/qbm/http/3/client.cpp::Client::process_pending_requests", "src/qbm/http/3/client.cpp::Client::fail_all_requests", "src/qbm/http/3/client.cpp::Client::fail_request", "src/qbm/http/3/client.cpp::Client::cancel_request", "src/qbm/http/3/client.cpp::Client::disconnect"]}
{"id": "C161", "title": "An HTTP/3 request gets only its own response", "statement": "No two requests are sent on the same stream of the same connection, and a request is only given a response that came on the connection and the stream on which it was sent.", "quantifier": "all histories of calls, events and timers", "why_tests_cant": "needs a reconnection with the same stream numbers at a chosen moment", "anchors": ["src/qbm/http/3/client.cpp::Client::process_pending_requests", "src/qbm/http/3/client.cpp::Client::on_http3_response", "src/qbm/http/3/client.cpp::Client::handle_connection_success"]}
{"id": "C162", "title": "The HTTP/3 client does not use a connection that is gone", "statement": "The connection object is not destroyed while it is reading, also when its loss is reported from within that read, and nothing is submitted on a connection that is not there; an idle client without a connection has no request on the wire.", "quantifier": "all histories of calls, events and timers", "why_tests_cant": "crashes depend on the exact nesting of callbacks and network events", "anchors": ["src/qbm/http/3/client.cpp::Client::dispatch", "src/qbm/http/3/client.cpp::Client::process_pending_requests", "src/qbm/http/3/client.cpp::Client::handle_connection_failure", "src/qbm/http/3/client.cpp::Client::disconnect"]}
{"id": "C163", "title": "Each connect callback of the HTTP/3 client is called exactly once", "statement": "Every callback given to connect is called exactly once or waits; while one waits an attempt to connect is under way; it is told the truth about that attempt.", "quantifier": "all histories of calls, events and timers", "why_tests_cant": "callbacks can be lost only in some interleavings of attempts, timers and disconnects", "anchors": ["src/qbm/http/3/client.cpp::Client::connect", "src/qbm/http/3/client.cpp::Client::handle_connection_success", "src/qbm/http/3/client.cpp::Client::handle_connection_failure", "src/qbm/http/3/client.cpp::Client::disconnect"]}
{"id": "C164", "title": "The statistics of the HTTP/3 client add up", "statement": "At every moment the number of requests is that of the calls, the successful and failed ones are those whose callbacks got a response and an error, and the difference is the requests still held.", "quantifier": "all histories of calls, events and timers", "why_tests_cant": "counters must agree after every re-entrant history", "anchors": ["src/qbm/http/3/client.cpp::Client::push_request", "src/qbm/http/3/client.cpp::Client::get_statistics", "src/qbm/http/3/client.cpp::Client::fail_request", "src/qbm/http/3/client.cpp::Client::on_http3_response"]}
{"id": "C165", "title": "The HTTP/2 client keeps to the server's windows and frame size", "statement": "In every history the DATA a client has written never exceeds the connection window and the stream window the server granted (with changes of the initial window size), no DATA frame is empty, and none exceeds the server's maximum frame size in force.", "quantifier": "all histories of frames from the server, requests and trailers of the application, requests in callbacks, all orders of the stream map", "why_tests_cant": "window arithmetic with several streams and SETTINGS in flight; a violation needs a particular interleaving", "anchors": ["src/qbm/http/2/protocol/client.h::ClientHttp2Protocol::_send_request_body_data_internal", "src/qbm/http/2/protocol/client.h::ClientHttp2Protocol::update_initial_peer_window_size", "src/qbm/http/2/protocol/client.h::ClientHttp2Protocol::on(WindowUpdateFrame)", "src/qbm/http/2/protocol/client.h::ClientHttp2Protocol::try_send_pending_data_for_stream"]}
{"id": "C166", "title": "The HTTP/2 client opens streams lawfully", "statement": "Every request is sent on a new odd stream, higher than all before, never after a GOAWAY of either side, and never beyond the server's limit of concurrent streams in force.", "quantifier": "all histories as above", "why_tests_cant": "counting of open streams must be right after every sequence of resets, ends and settings", "anchors": ["src/qbm/http/2/protocol/client.h::ClientHttp2Protocol::send_request", "src/qbm/http/2/protocol/client.h::ClientHttp2Protocol::get_active_stream_count"]}
{"id": "C167", "title": "A request of the HTTP/2 client has at most one outcome, and resets and ends are reported", "statement": "A response or a stream error is reported at most once per request, only for a request that was sent, with the application's own tag; a stream error has the code of a RST_STREAM; a reset by either side is reported unless the server had ended or disowned the stream; HEADERS that ends the stream, and DATA that ends it after a response head without announced trailers, is reported at once or closes the connection.", "quantifier": "all histories as above", "why_tests_cant": "needs every order of HEADERS, CONTINUATION, DATA, RST_STREAM, GOAWAY and callbacks", "anchors": ["src/qbm/http/2/protocol/client.h::ClientHttp2Protocol::process_complete_response_if_ready", "src/qbm/http/2/protocol/client.h::ClientHttp2Protocol::send_rst_stream", "src/qbm/http/2/protocol/client.h::ClientHttp2Protocol::on(RstStreamFrame)", "src/qbm/http/2/protocol/client.h::ClientHttp2Protocol::process_incoming_headers", "src/qbm/http/2/protocol/client.h::ClientHttp2Protocol::on(DataFrame)"]}
{"id": "C168", "title": "A response of the HTTP/2 client is what the server sent", "statement": "A response that is reported has exactly the body received on its stream, a status from 100 to 999, comes only when the server ended or disowned the stream, and its declared content-lengths are the length of the body where bodies are measured.", "quantifier": "all histories as above", "why_tests_cant": "all fragmentations of bodies and header blocks over frames, interleaved with other streams", "anchors": ["src/qbm/http/2/protocol/client.h::ClientHttp2Protocol::on(DataFrame)", "src/qbm/http/2/protocol/client.h::ClientHttp2Protocol::parse_and_validate_headers_into_response", "src/qbm/http/2/protocol/client.h::ClientHttp2Protocol::process_complete_response_if_ready"]}
{"id": "C169", "title": "The HTTP/2 client writes exactly the body of the request", "statement": "The DATA on a stream is in order a prefix of the body of its request; the stream is ended exactly once, with the last octet, with the head, or with announced trailers, and nothing follows the end.", "quantifier": "all histories as above", "why_tests_cant": "the body is cut by windows and frame sizes at every place", "anchors": ["src/qbm/http/2/protocol/client.h::ClientHttp2Protocol::_send_request_body_data_internal", "src/qbm/http/2/protocol/client.h::ClientHttp2Protocol::send_request_trailers", "src/qbm/http/2/protocol/client.h::ClientHttp2Protocol::try_send_pending_data_for_stream"]}
{"id": "C170", "title": "The HTTP/2 client gives back windows honestly", "statement": "A WINDOW_UPDATE is never for 0 octets and the client never gives back more than it received; DATA that fits into what was granted is accepted and added to the response.", "quantifier": "all histories as above", "why_tests_cant": "accumulated credits over many streams and updates", "anchors": ["src/qbm/http/2/protocol/client.h::ClientHttp2Protocol::on(DataFrame)", "src/qbm/http/2/protocol/client.h::ClientHttp2Protocol::conditionally_send_connection_window_update", "src/qbm/http/2/protocol/client.h::ClientHttp2Protocol::send_window_update"]}
{"id": "C171", "title": "PING and SETTINGS floods are bounded on the client", "statement": "At no time has the client written more than 1000 replies to PING and SETTINGS since the last DATA frame or response.", "quantifier": "all histories as above", "why_tests_cant": "needs all interleavings of floods with traffic", "anchors": ["src/qbm/http/2/protocol/client.h::ClientHttp2Protocol::on(PingFrame)", "src/qbm/http/2/protocol/client.h::ClientHttp2Protocol::on(SettingsFrame)"]}
{"id": "C172", "title": "The HTTP/2 client is quiet after its GOAWAY", "statement": "Once the client has written GOAWAY no frame is written and nothing but the GOAWAY is reported.", "quantifier": "all histories as above", "why_tests_cant": "the error paths are nested in callbacks and loops", "anchors": ["src/qbm/http/2/protocol/client.h::ClientHttp2Protocol::send_goaway_and_close", "src/qbm/http/2/protocol/client.h::ClientHttp2Protocol::on(SettingsFrame)", "src/qbm/http/2/protocol/client.h::ClientHttp2Protocol::send_request_trailers"]}
{"id": "C173", "title": "The fields of an HTTP/2 request", "statement": "HEADERS of a request has :method, :scheme, :authority (if any) and :path once each and first, then exactly the application's fields that may be passed on, in lower case and in order, then the right content-length; nothing the application adds can be a pseudo-header, a connection field, a second length or a line break; a server of this library takes every such request for what it is.", "quantifier": "all requests: all methods, URIs, header maps and bodies", "why_tests_cant": "all header names, values and URIs", "anchors": ["src/qbm/http/2/protocol/client.h::ClientHttp2Protocol::prepare_request_headers", "src/qbm/http/2/protocol/server.h::process_complete_header_block"]}
{"id": "C174", "title": "Every request of the HTTP/2 client gets an outcome", "statement": "While the connection is up, every request that the server ended, reset or disowned gets a response or a stream error.", "quantifier": "all histories as above", "why_tests_cant": "silent losses happen only in odd orders of frames", "anchors": ["src/qbm/http/2/protocol/client.h::ClientHttp2Protocol::on(DataFrame)", "src/qbm/http/2/protocol/client.h::ClientHttp2Protocol::on(GoAwayFrame)", "src/qbm/http/2/protocol/client.h::ClientHttp2Protocol::process_complete_response_if_ready"]}
{"id": "C175", "title": "Frames reach the coroutine in order, once, and none is lost", "statement": "The frames that receive (next_frame) gives are, in order and at most once each, the frames that came on the connection; if the unread frames never exceed the limit and no waiting coroutine is destroyed, none is lost, receive waits only when nothing is unread, and otherwise gives the first unread frame at once.", "quantifier": "all histories of reports, calls, destructions and limits, for coro_client and coro_session", "why_tests_cant": "needs every interleaving of arriving frames, waiting coroutines, losses and new connections", "anchors": ["src/qbm/http/ws/coro.h::coro_client::deliver_frame", "src/qbm/http/ws/coro.h::coro_client::receive", "src/qbm/http/ws/coro.h::coro_session::next_frame", "src/qbm/http/ws/coro.h::coro_session::deliver_frame"]}
{"id": "C176", "title": "Every WebSocket co_await ends exactly once, truthfully", "statement": "A co_await of connect, receive or close_async is resumed or throws at most once, with a value of its type; connect is true only when the connection has just been established, failures and the notice of a lost connection are given only for a lost or renewed connection, close_async is true only after the peer's Close or a loss; once the connection is gone nobody is left waiting.", "quantifier": "all histories as above", "why_tests_cant": "the handlers race: a loss, an error, a new connect and the peer's Close can come in any order with up to three coroutines waiting", "anchors": ["src/qbm/http/ws/coro.h::coro_client::connect", "src/qbm/http/ws/coro.h::coro_client::close_async", "src/qbm/http/ws/coro.h::coro_client::on", "src/qbm/http/coro.h::http_awaiter"]}
{"id": "C177", "title": "The queue of unread WebSocket frames is bounded", "statement": "The queue never exceeds the largest limit set, and no report lets it exceed the limit in force if it did not before.", "quantifier": "all histories as above", "why_tests_cant": "the bound must hold however many frames a peer sends before the application reads", "anchors": ["src/qbm/http/ws/coro.h::coro_client::deliver_frame", "src/qbm/http/ws/coro.h::coro_client::set_pending_cap"]}
{"id": "C178", "title": "One Close frame in each direction", "statement": "The peer's Close is answered once with its own payload, unless a Close frame was already written; at most one Close frame is written per connection; close_async can be used again after it failed.", "quantifier": "all histories as above", "why_tests_cant": "needs the crossing of Close frames, failed calls and violations", "anchors": ["src/qbm/http/ws/coro.h::coro_session::close_async", "src/qbm/http/ws/coro.h::coro_client::close_async", "src/qbm/http/ws/ws.h::WebSocket::on(closed)", "src/qbm/http/ws/ws.h::fail_connection"]}
{"id": "C179", "title": "One receiver at a time", "statement": "A receive while another waits throws and changes nothing: the waiting one is given the next frame. A receive that is cancelled leaves the connection usable.", "quantifier": "all histories as above", "why_tests_cant": "needs all orders of waiting, cancelling and arriving frames", "anchors": ["src/qbm/http/ws/coro.h::coro_client::receive", "src/qbm/http/ws/coro.h::coro_session::next_frame", "src/qbm/http/coro.h::http_awaiter::~http_awaiter"]}
{"id": "C180", "title": "The server accepts exactly the valid WebSocket upgrades", "statement": "An upgrade request is accepted if and only if it is a GET marked as an upgrade, with Upgrade: websocket, upgrade among the comma-separated elements of Connection, version 13, and a key that is the base64 of exactly 16 octets; the response is 101 with Upgrade, Connection and the answer to that key, after the fields the response already had.", "quantifier": "all requests and responses, all base64/SHA-1 libraries with the stated laws", "why_tests_cant": "the accepted set is an infinite language of field values (case, blanks, commas, keys)", "anchors": ["src/qbm/http/ws/ws.h::populate_handshake_response", "src/qbm/http/ws/ws.h::detail::has_token_ci", "src/qbm/http/ws/ws.h::detail::iequal_ascii", "src/qbm/http/ws/ws.h::detail::trim_ows", "src/qbm/http/ws/ws.h::detail::compute_accept_key"]}
{"id": "C181", "title": "A WebSocket client takes exactly the right responses, and agrees with the server", "statement": "A client takes a response if and only if it is 101, an upgrade to websocket, and answers the client's own key, and names no subprotocol or exactly one that was offered, which is then the negotiated one; only tokens can be offered, and the request offers exactly those; the request of a client is accepted by the server, whose response the client takes.", "quantifier": "all responses, keys, nonces, hosts, lists of subprotocols and choices of the server", "why_tests_cant": "soundness and completeness for every response, and agreement of the two ends for every nonce and list", "anchors": ["src/qbm/http/ws/ws.h::validate_handshake_response", "src/qbm/http/ws/ws.h::set_subprotocols", "src/qbm/http/ws/ws.h::WebSocket::on", "src/qbm/http/ws/ws.h::detail::constant_time_equal", "src/qbm/http/ws/ws.h::WebSocketRequest"]}
{"id": "C182", "title": "accept_upgrade: run is started once, after 101; a refusal is an error response", "statement": "accept_upgrade succeeds exactly if the hook allows it and what the hook left is a valid request; then 101 is written before run is started, and run is started at most once per session. A refusal writes one error response and closes the connection after it.", "quantifier": "all hooks (also throwing), requests, responses and sequences of calls on one session", "why_tests_cant": "all hooks and all sequences of upgrade attempts", "anchors": ["src/qbm/http/ws/coro.h::coro_session::accept_upgrade", "src/qbm/http/ws/coro.h::coro_session::spawn_run_loop", "src/qbm/http/ws/ws.h::ws_server"]}
{"id": "C183", "title": "The Host of a WebSocket request", "statement": "The Host of the request is the host of the URI, in brackets if it contains a colon and is not bracketed yet, followed by the port unless it is absent or the default of the scheme.", "quantifier": "all schemes, hosts and ports", "why_tests_cant": "all strings", "anchors": ["src/qbm/http/ws/ws.h::detail::make_host_header_value"]}
{"id": "C184", "title": "HTTP/3 connection objects are never used after they are destroyed, and never leak", "statement": "Whatever callbacks re-enter the server, no read, acknowledgement, response or shutdown notice uses a connection object after it was destroyed; nothing is destroyed while a read is under way; only connections whose closure was reported are destroyed, and all of them are as soon as the outermost read or the event of the endpoint ends; a connection has one object at a time.", "quantifier": "all sequences of events, with arbitrary re-entrancy", "why_tests_cant": "a use-after-free needs a particular nesting of callbacks; all nestings are covered", "anchors": ["src/qbm/http/3/http3.h::server::dispatch(stream_data)", "src/qbm/http/3/http3.h::server::reap_closed_connections", "src/qbm/http/3/http3.h::server::after_dispatch_events", "src/qbm/http/3/http3.h::server::ensure_connection", "src/qbm/http/3/http3.h::server::graceful_shutdown"]}
{"id": "C185", "title": "No HTTP/3 request context is forgotten", "statement": "The hook after the response runs at most once per context; a context belongs to one session; a context attached to a session of the table had its hook run, was cancelled, or still waits there; when the report of a closed connection returns, none of its sessions is left, so all that waited are settled; contexts are cancelled only because their stream or connection was closed.", "quantifier": "all sequences of events, with arbitrary re-entrancy, one request per stream", "why_tests_cant": "leaks and double hooks depend on the order of drain, close and reply", "anchors": ["src/qbm/http/3/http3.h::session::attach_context", "src/qbm/http/3/http3.h::session::cancel_context", "src/qbm/http/3/http3.h::session::mark_response_sent", "src/qbm/http/3/http3.h::server::dispatch(connection_closed)", "src/qbm/http/3/http3.h::server::dispatch(stream_closed)", "src/qbm/http/3/http3.h::server::on_http3_request"]}
{"id": "C186", "title": "HTTP/3 graceful shutdown closes a connection when it is idle, and not before", "statement": "After a graceful shutdown a connection is closed without error only if it was told to go away and no request waits on it (or the protocol is drained), and it is closed as soon as that is so.", "quantifier": "all sequences of events", "why_tests_cant": "the last context can end in any of several callbacks, in any order", "anchors": ["src/qbm/http/3/http3.h::server::graceful_shutdown", "src/qbm/http/3/http3.h::server::maybe_finish_graceful_shutdown", "src/qbm/http/3/http3.h::server::on_http3_stream_output_drained", "src/qbm/http/3/http3.h::server::on_http3_stream_closed", "src/qbm/http/3/http3.h::server::send_response"]}
{"id": "C187", "title": "HTTP/3 responses go to their own stream, with HEAD semantics, and do not revive connections", "statement": "A response submitted is the one the application (or the router: 404) meant for that session, on the stream and connection that session was made for, whose object is alive; a response to HEAD has the status and fields of GET and no body; a body that is not empty gets a content-length unless one is given; responses on dead connections are dropped.", "quantifier": "all responses and all sequences of events", "why_tests_cant": "quantifies over all interleavings of requests, replies and closures", "anchors": ["src/qbm/http/3/http3.h::session::operator<<", "src/qbm/http/3/http3.h::server::send_response", "src/qbm/http/3/http3.h::server::ensure_session", "src/qbm/http/3/http3.h::server::on_http3_request"]}
{"id": "C188", "title": "A request is answered exactly once whatever mixture of handlers serves it", "statement": "If every handler that is invoked (middleware, coroutine middleware, route handler, coroutine route handler, error handlers) says once how it ends - by complete, by next, by throwing, a coroutine also by returning -, synchronously or later, then when nothing runs any more the request is finalised and answered exactly once; and as long as it is not, exactly one handler, the last invoked, is still to say how it ends. Without the contract it is still answered at most once.", "quantifier": "all chains and error chains of the four kinds of handlers, all interleavings of what they do, of cancellations and of returns", "why_tests_cant": "a lost completion depends on the order in which handlers return, complete and resume; all orders are covered", "anchors": ["src/qbm/http/routing/route.h::RouteLambdaTask::execute", "src/qbm/http/routing/middleware.h::FunctionalMiddleware::process", "src/qbm/http/routing/middleware.h::MiddlewareTask::execute", "src/qbm/http/routing/coro_task.h::make_coro_task_runner", "src/qbm/http/routing/context.h::Context::ScopedFinalizationDeferral"]}
{"id": "C189", "title": "Exceptions, returns and repeated calls of handlers are turned into one outcome", "statement": "A coroutine that completed the request itself is not completed again when it returns; one that said nothing is completed, a middleware with CONTINUE, a route with COMPLETE; an exception before the request is over makes the answer 500, or starts the error chain if there is one; the second call of next by an invocation does nothing, however late.", "quantifier": "all histories, without any assumption on the handlers", "why_tests_cant": "the guards compare counters and flags that any interleaving may have changed", "anchors": ["src/qbm/http/routing/coro_task.h::make_coro_task_runner", "src/qbm/http/routing/route.h::RouteLambdaTask::execute", "src/qbm/http/routing/middleware.h::FunctionalMiddleware::process"]}
{"id": "C190", "title": "A form survives being written to a body and read back", "statement": "A form built by any sequence of additions and written to a body as application/x-www-form-urlencoded reads back, under every non-empty name, as the same values in the same order, whatever bytes names and values contain (separators included) and in whatever order the table is walked; two forms with the same body have the same fields. Values under the empty name are lost.", "quantifier": "all forms, all names and values, all walking orders of the table, every percent-encoding that meets the contract", "why_tests_cant": "a name or value with a separator in it, or a table walked in another order, is one of infinitely many inputs", "anchors": ["src/qbm/http/body.cpp::Body::operator=<Form>", "src/qbm/http/body.cpp::Body::as<Form>", "src/qbm/http/form.h::Form"]}
{"id": "C191", "title": "A form body is read exactly", "statement": "The fields of a form read from a body are exactly what the segments between the & say, in order: the name before the first =, the value after it, an empty value if there is no =; segments whose decoded name is empty are dropped and nothing else is.", "quantifier": "all bodies", "why_tests_cant": "the body is untrusted; all of them are covered", "anchors": ["src/qbm/http/body.cpp::Body::as<Form>"]}
{"id": "C192", "title": "Only a request whose token the verification service vouches for gets past the reCAPTCHA middleware", "statement": "When the answer of the service comes, the next task of the request starts exactly if the answer is a 200 with a JSON object whose success is the boolean true, with a score if the challenge is a v3 one, and with a score not below the minimum if there is one and the challenge is not a v2 one. Any other answer makes the response 403, and no task of the request starts then or later. An answer that comes after the request was cancelled or finished changes nothing. The action and the host name reported by the service are not looked at.", "quantifier": "all answers, options and states of the request, all later events", "why_tests_cant": "an answer of the service is untrusted and may come at any time; all answers in all states are covered", "anchors": ["src/qbm/http/middleware/recaptcha.h::RecaptchaMiddleware::process", "src/qbm/http/middleware/recaptcha.h::RecaptchaMiddleware::parse_google_recaptcha_response", "src/qbm/http/middleware/recaptcha.h::RecaptchaMiddleware::set_error_response"]}
{"id": "C193", "title": "The reCAPTCHA token, and nothing else of the request, reaches the verification service", "statement": "A request with a non-empty token at the configured place (header, query, a JSON string member of the body, else the first value of the form field) is held while exactly that token is sent; read as a form, what is sent holds the secret, the token and the address if given, whatever bytes the token contains: it can neither add nor replace a parameter. A request without a token is answered with 400 and nothing is sent.", "quantifier": "all requests, tokens, secrets and options", "why_tests_cant": "the token is chosen by an attacker; all byte strings are covered", "anchors": ["src/qbm/http/middleware/recaptcha.h::RecaptchaMiddleware::extract_token_from_request", "src/qbm/http/middleware/recaptcha.cpp::build_recaptcha_verification_body"]}
{"id": "C194", "title": "The configured security headers are on every response", "statement": "Whatever handlers and middlewares do to a response, in whatever order they run and register hooks: every header that the configuration of a security headers middleware promises is sent with the promised value alone, however the name was written before, unless a hook registered after it changes that very header. The middleware changes no other header, and promises at most one value for a header.", "quantifier": "all configurations, responses, sequences of handlers, middlewares and hooks", "why_tests_cant": "a handler may set or remove any header at any time; all sequences are covered", "anchors": ["src/qbm/http/middleware/security_headers.h::SecurityHeadersMiddleware::process", "src/qbm/http/routing/context.h::Context::execute_hook_internal", "src/qbm/http/routing/router.h::Router::Router"]}
{"id": "C195", "title": "The nonce in the policy is the nonce of the context", "statement": "With nonces enabled, every handler after the middleware finds the nonce made for this request in the context, and the Content-Security-Policy that is sent names that nonce (or is the configured policy), as long as user code leaves the nonce alone. If user code replaces the nonce by something that is no string, no policy is sent, not even a configured one.", "quantifier": "all sequences of handlers, middlewares and hooks that leave the nonce alone", "why_tests_cant": "the nonce is read long after it was written, after any number of handlers", "anchors": ["src/qbm/http/middleware/security_headers.h::SecurityHeadersMiddleware::process", "src/qbm/http/routing/context.h::Context::set", "src/qbm/http/routing/context.h::Context::get"]}
{"id": "C196", "title": "The error middleware calls the handler that was registered for the status", "statement": "After any sequence of registrations, the handler in charge of a status is the last one registered for that very status, or, if there is none, the first one registered for a range of statuses that contains it. When the error chain reaches the middleware, the handler in charge of the status of the response is called; the generic handler is called if nobody is in charge or if the handler throws, with the error message found in the context; no other handler is called.", "quantifier": "all sequences of registrations (also null handlers and ranges outside 100..599), all statuses and contexts", "why_tests_cant": "registrations may overlap in any number and order", "anchors": ["src/qbm/http/middleware/error_handling.h::ErrorHandlingMiddleware::on_status", "src/qbm/http/middleware/error_handling.h::ErrorHandlingMiddleware::on_status_range", "src/qbm/http/middleware/error_handling.h::ErrorHandlingMiddleware::process"]}
{"id": "C197", "title": "The error middleware always ends the request", "statement": "Whatever the error handlers do with the context (short of destroying it) and whether they throw or not, after the error middleware the request is over, or will be as soon as an open deferral scope is left. Handlers that only set statuses: the response is sent once, with the status that the last handler called left.", "quantifier": "all registrations, handlers, contexts", "why_tests_cant": "handlers are arbitrary user code that may complete, cancel or throw", "anchors": ["src/qbm/http/middleware/error_handling.h::ErrorHandlingMiddleware::process", "src/qbm/http/routing/context.h::Context::complete"]}
{"id": "C198", "title": "Transformations and conditions have one outcome", "statement": "A request transformation that succeeds lets the request go on to the next task; one that throws ends the route: the error chain is entered with status 500, or the request is answered with 500. A condition runs the child it selects and no other; without a child for its answer the request goes on; a predicate that throws, or a child that throws before it did anything, is like a failed transformation.", "quantifier": "all contexts, transformers, predicates and child middlewares", "why_tests_cant": "user code may throw at any point and do anything with the context before", "anchors": ["src/qbm/http/middleware/transform.h::TransformMiddleware::process", "src/qbm/http/middleware/conditional.h::ConditionalMiddleware::process"]}
{"id": "C199", "title": "Every request and response is logged and timed once", "statement": "Every request that reaches a logger is logged once; when the response is sent, it is logged, with the status that is sent, once by every logger the request reached. A timer reports, once per response, the time between the moment the request reached it and the moment the response is sent, provided that no other timer of the same name was reached in between. Handlers, other hook points and other middlewares do not change this.", "quantifier": "all sequences of middlewares, handlers and hook points", "why_tests_cant": "any number of loggers and timers may be registered, in any order", "anchors": ["src/qbm/http/middleware/logging.h::LoggingMiddleware::process", "src/qbm/http/middleware/timing.h::TimingMiddleware::process", "src/qbm/http/routing/context.h::Context::execute_hook_internal"]}
{"id": "C200", "title": "No request context of an HTTP/2 session is forgotten", "statement": "Whatever requests, stream errors, write progress and disconnections come, in whatever order and nesting: every context that a session (HTTP/2 or HTTP/1.1) was given by the router is kept under its stream until its hook after the response was run or it was cancelled; when a disconnection or extraction has been worked off, all of them are settled and none is kept. The hook is run at most once per context, and only because the stream is closed or all of the HTTP/1.1 response was written.", "quantifier": "all sequences of events and nestings of stream errors in user code", "why_tests_cant": "leaks and double hooks depend on the order of answers, resets and disconnection", "anchors": ["src/qbm/http/2/http2.h::internal::session::on", "src/qbm/http/2/http2.h::internal::session::_contexts"]}
{"id": "C201", "title": "The table of contexts is never changed under a loop that relies on it", "statement": "No entry of the table of contexts of an HTTP/2 session is used after it was erased, whatever user code does while contexts are cancelled or their hooks run.", "quantifier": "all sequences of events and nestings of stream errors in user code", "why_tests_cant": "needs an answer that the protocol refuses exactly while the session is torn down", "anchors": ["src/qbm/http/2/http2.h::internal::session::on", "src/qbm/http/2/protocol/server.h::ServerHttp2Protocol::send_response", "src/qbm/http/2/protocol/server.h::ServerHttp2Protocol::send_rst_stream"]}
{"id": "C202", "title": "An HTTP/2 session hands responses on unchanged", "statement": "A response is handed to the protocol for the stream of its request with the status, body and fields it has; only a body that is not empty and has no content-length is given one, with its length. Nothing is handed on exactly if the response has no HTTP/2 stream or a status outside 100..599.", "quantifier": "all responses", "why_tests_cant": "quantifies over all responses", "anchors": ["src/qbm/http/2/http2.h::internal::session::operator<<", "src/qbm/http/2/http2.h::internal::session::validate_response"]}
