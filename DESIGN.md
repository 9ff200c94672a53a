# Formal model of isndev/qbm-http in Lean 4 — design

## 1. Technique and trusted base

* Lean 4.33.0's kernel checks every theorem. No axiom is added; every property theorem depends
  on at most `propext`, `Classical.choice`, `Quot.sound` (section 5 has the audit).
* No compiled-code proof tactics are used. `decide +kernel` is used only where the quantifier is a
  whole finite table (all 256 bytes, the 257 Huffman codes, the 61 static HPACK entries).
* What the theorems are about is the *model*. The model was written by reading `/repo` as text;
  every definition cites file and lines. The code is not run here. Reading errors are the main risk.
* Trusted besides the kernel: the C++ reading itself — in particular that `size_t`/`uint64_t`
  quantities that count bytes in memory do not overflow (they are `Nat` unless a property is about
  overflow, in which case the guard of the code is modelled literally), that standard containers
  behave as documented (`std::vector` = list, `std::unordered_map` = finite map,
  `find/emplace/insert_or_assign`), and that a C++ exception unwinds as modelled.
* Bytes are `UInt8`, byte strings `List UInt8` (`Verif.Bytes`). `char` is taken as signed (x86/ARM
  Linux ABI difference is noted where it matters: HPACK header validation).

## 2. Layout

`lean/Verif/<Area>/Model.lean` (functions of the code, each citing its lines),
`Spec.lean` (small independent specification), `Lemmas.lean` (helpers),
`Theorems.lean` (the property theorems + non-vacuity examples).

| Area | Code |
|---|---|
| Utility | `utility.h`, `utility.cpp` |
| Router | `routing/radix_tree.h` |
| Hpack | `2/protocol/hpack.{h,cpp}`, `hpack_huffman.{h,cpp}` |
| H2 | `2/protocol/frames.h`, `base.{h,cpp}`, `stream.{h,cpp}` |
| Ws | `ws/ws.{h,cpp}` |
| Stream | `2/protocol/stream.h` (state machine, windows, validators) |
| Context | `routing/context.h` |
| Date | `date.{h,cpp}` |
| Static | `middleware/static_files.{h,cpp}` |
| Cookie | `cookie.{h,cpp}` |
| Wire | `1.1/` serialisation in `request.cpp`, `response.cpp`, `body.cpp` |
| Parse | `1.1/protocol/base.h` (llhttp callbacks and read loop; llhttp itself is a parameter) |
| Rate | `middleware/rate_limit.h` |
| Mid | header map operations shared by the middlewares (`headers.h`) |
| Cors | `middleware/cors.{h,cpp}` |
| Srv | `2/protocol/server.h` |
| Hdr | `headers.cpp`, `middleware/compression.h`, `Body::compress`/`uncompress` in `body.cpp` |
| Multi | `multipart.{h,cpp}`, `form.h`, the multipart reader and the forms in `body.cpp` |
| Route | `routing/{handler_node,route,route_group,controller,router_core,router}.h`: declaration, compilation and dispatch |
| Cli | `1.1/client.{h,cpp}` (the persistent client as a machine with re-entrant callbacks); batches of `2/client.cpp`, `3/client.cpp`; `origin.cpp`; `host_header_value` of `1.1/http.cpp`. Not modelled: set_* calls after the start, durations, bodies, exceptions of callbacks, destruction during a callback |
| Cli2 | `2/client.{h,cpp}` (the persistent HTTP/2 client as a machine with re-entrant callbacks, GOAWAY, timeouts, reconnection). Not modelled: set_* calls after the start, durations, bodies, the destructor; batches are in Cli |
| Valid | `validation/{schema_validator,rule,sanitizer,parameter_validator,request_validator,error}.cpp`, `middleware/validation.h`. Assumed: the JSON library (`Json.lean` states what of it), regular expressions and hashes (`Env`), `qb::to_number_prefix`. Not modelled: messages, the cache of rules |
| H3 | `3/protocol/connection.h`: incoming and outgoing messages, `read_data_cb`, `drain`. `nghttp3` is not in the repository: its callbacks are an arbitrary list of events, its offers of output an arbitrary list of pieces. |
| Cli3 | `3/client.{h,cpp}`: the persistent HTTP/3 client as a small-step machine with a stack of functions under way; user callbacks may call the API, the endpoint may report events from within its calls. The QUIC endpoint is not in the repository: its answers and events are arbitrary. Not modelled: the destructor, setters after the start, batches, contents, durations |
| Clp | `2/protocol/client.h`: the HTTP/2 client connection, all frame handlers, `send_request`, `send_request_trailers`, with a log of everything received, written and reported; `Micro*.lean` refines every function into small steps, on which the invariants are proved. HPACK, the order of the stream map and the requests sent in callbacks are parameters. Not modelled: priorities, debug texts, pushed streams (dead code), write errors |
| Wsc | `ws/coro.h`: `coro_client`, `coro_session`; `http_awaiter` of `coro.h`; the parts of `WebSocket` in `ws/ws.h` that write Close frames. A step is a report of the connection, a call, a destruction or a new limit. Not modelled: the attempt to connect, the handshake, `run` and its spawning, pongs, ping timers, sending of data |
| Wsh | the WebSocket handshake: `ws/ws.h` 791-1044, 1105-1145, 1229-1375 and `accept_upgrade`, `ws/coro.h` 611-756. Base64 and SHA-1 are a parameter with the laws `Lawful` (base64 decodes what it encodes, 16 octets make 24 characters without blanks, hashes are not empty), shown to be satisfiable by a base64 written and proved here; the flag `upgrade` set by the HTTP parser is an input |
| Sv3 | the HTTP/3 server between QUIC, the protocol and the router: `3/http3.h` 150-240, 255-440, 500-525, 595-692. A step is a piece of a call up to the next place where other code can run, and the calls under way are a stack, so re-entrancy is arbitrary; the QUIC endpoint, nghttp3 and the handlers are inputs |
| Adp | how handlers are run: `RouteLambdaTask`, `FunctionalMiddleware`, `MiddlewareTask`, the coroutine runner (`routing/route.h` 78-121, `routing/middleware.h` 104-163, 225-291, `routing/coro_task.h` 118-180), on top of Context. Handlers are not programs: what they do are inputs, in any order and at any time. Not modelled: bodies of 500 responses, logging, class middleware written by the user |
| Frm | HTML forms in bodies (`form.h` 30-125, `body.cpp` 782-797, 838-878). `qb::io::uri::encode`/`decode` belong to another library: parameters, with a contract (`CodecOk`) that the encoder and decoder of `utility.cpp` meet (`utilityCodec_ok`, from C01 and C02). The `unordered_map` is a list in an arbitrary order |
| Cap | the reCAPTCHA middleware (`middleware/recaptcha.h` 358-632, `recaptcha.cpp` 17-24), on top of Context and Frm. Parameters: JSON parsing, `get<float>()`, the percent-encoding (contract `CodecOk`). Not modelled: error texts and bodies, error codes, the time of the challenge, the HTTP exchange itself (areas Cli) |
| Sec | the security headers middleware (`middleware/security_headers.h` 53-372, `security_headers.cpp` 36-48), hooks (`routing/context.h` 195-207, 625-642, `routing/router.h` 347-353). Handlers and other hooks are arbitrary functions on the scheme of the request, the headers of the response and the data of the context. Not modelled: randomness of the nonce, hooks that add hooks |
| Bim | error handling (`middleware/error_handling.h` 60-206), request transformation (`middleware/transform.h` 47-94), conditions (`middleware/conditional.h` 50-103), logging (`middleware/logging.h` 70-160), timing (`middleware/timing.h` 60-124), on top of the model of the context. User functions are given by what they do to the context and whether they throw. Not modelled: texts of log lines, bodies, `cancel` of the middlewares |
| Se2 | the session of the HTTP/2 server (`2/http2.h` 90-420): contexts, responses. Calls of the session are cut where user code runs; stream errors may be reported there. Not modelled: timeouts, idle cleanup, GOAWAY; the event loop is taken not to be re-entered |
| Auth | `auth/{manager,options,user}.cpp`, `middleware/auth.h`, `middleware/jwt.h` |

Further areas are appended as the model grows (section 4).

## 3. Plan per property

| Id | Modelled | Proof |
|---|---|---|
| C01 | byte-level encoder/decoder | induction on the string; per-byte facts over all 256 bytes |
| C02 | decoder | independent relational spec `Decodes` (escape / plain), functional induction |
| C03 | `escape_html` | left inverse (unescape) + image characterisation |
| C04 | `iequals` | per-byte fact over 256×256 pairs by bit reasoning, list induction |
| C05 | splitting loop with positions | equals spec: split on delimiter, trim, drop empties |
| C06 | `split_string_by`, `split_string` | join∘split = id; maximal runs spec |
| C07–C10 | radix tree insert and backtracking match | abstraction: tree ↦ set of (pattern, method, handler); soundness, completeness, priority = argmin over matching patterns; frame law |
| C11 | `allowed_methods` | same abstraction |
| C12 | `split_path_to_segments` | equals splitOn '/' without empties |
| C13–C14 | integer codec with the code's 64-bit guards | induction on the value/bytes; exact-value spec |
| C15–C16 | Huffman table, bit packer, decode tree walk | prefix-freeness by kernel computation over the whole table; induction on the string |
| C17–C18 | ring-buffer dynamic table | refinement to newest-first list, invariant over all op sequences |
| C19–C21 | Encoder::encode / Decoder::decode | simulation between two tables, induction on header list and list of lists |
| C22 | encoder with mid-block failure | expected false: negative witness plus `_partial` for what does hold |
| C23–C27 | serializers, incremental framer state machine | framer as `step` over a buffer; induction over frame lists and read segmentation |
| C28 | window arithmetic on int64/int32 | expected false in corners: negative witness + exact domain |
| C29 | stream state machine | invariant over event sequences vs RFC 7540 state graph |
| C30–C31 | validators | equivalence with declarative spec |
| C32–C35, C37 | WS writer and parser | parser as step over a buffer; induction over frame lists |
| C36 | `is_utf8` automaton | equivalence with concatenation of scalar-value encodings |
| C38–C41 | context lifecycle machine with nested calls | tasks as arbitrary finite scripts of calls; invariant over all scripts |
| C42 | static table lookup | whole finite table |
| C43–C44 | framer | invariant: no frame after a failure; payload semantics relation |
| C45 | receive-window accounting of `stream.h` | invariant over all consume/credit sequences |
| C46–C49 | validators | equivalence with declarative spec |
| C50–C52 | WS receive loop | segmentation independence by induction; delivered ⇒ legal; replies parse |
| C53 | `add_route` acceptance | characterised via the pattern set; false after a refused call |
| C54–C56 | HPACK decoder/encoder | relational spec of RFC 7541 representations; both directions |
| C57–C59 | date formatter and three parsers | civil-calendar spec; induction on days/eras |
| C60–C64 | path resolution over an abstract file tree with symlinks, ranges, tags | relational spec of resolution; RFC 9110 range/tag specs |
| C65 | deferred finalisation in the context machine | as C38 |
| C66–C70 | Set-Cookie writer and parsers, jar | image characterisation, round trip, exact grammar |
| C71–C74 | HTTP/1.1 writers | independent relational grammar of messages; uniqueness of parse; pipelining by induction |
| C75–C78 | llhttp callbacks, read loop | fragmentation independence by induction over fragments; engine abstract with streaming laws |
| C79–C84 | rate limiter as a step function over requests, sweeps and resets | invariants over histories; non-interference by simulation |
| C85–C87 | CORS options and `process` | last-configured rule invariant; header map algebra |
| C88 | the HTTP/2 server connection as a state machine over frames, calls and handler scripts | every step decomposed into micro steps (`Path`); ledger of octets against windows |
| C89 | the same | invariant: one GOAWAY, numbers of delivered requests at most the recorded one |
| C90 | the same | per-stream history of frames against one response; the two-response case is refuted |
| C91 | the same | at rest a pending body has no window left (`Rest*`); answers write HEADERS |
| C92 | the same | ledgers of accepted DATA and WINDOW_UPDATE; the overlong-body case is refuted |
| C93 | the same | requests in progress are in the table; the table counts at most 50 |
| C94 | the same, with an independent `ValidHead` | per-stream history of DATA and HEADERS against the request handed over; delivery on a new stream |
| C95 | the same | counters related to the suffix of the history |
| C96 | the same, also with the real HPACK codec | the decoder state is the fold over the completed blocks; refutation with the real codec |
| C97–C99 | the same | exact result of one step; permission from the history of SETTINGS; three refutations |
| C100, C101 | `AuthMiddleware::process` with the JWT library and JSON as parameters (`Ext`) | case analysis to an exact specification (`Upstream`, `Presented`, `Authorised`); role gate refuted |
| C102 | `generate_token`, `verify_token` | what comes back for every user, from the library's round trip; two refutations |
| C103 | both header extractors | equivalence with a grammar (`Credentials`) |
| C104 | claims without signature | equivalence with `ClaimsOk`, numerals specified independently; refuted at 2^63 |
| C105 | both verifiers | exact: acceptance is acceptance by the library under the configured options |
| C106 | `JwtMiddleware` before `AuthMiddleware` | composition; refuted for numeric subjects |
| C107, C108 | the character loop of `parse_header_attributes` as a state machine; `ContentType::parse` | equivalence with a grammar (`Attrs`) by induction over the input, uniqueness of the grammar |
| C109 | `select_best_encoding` with its lambdas | equivalence with a relational reading of the header (`Listed`, `Weight`, `Chosen`) |
| C110 | `content_encoding`, `parse_accept_encoding_q` | the loop decides by the first usable element; two refutations |
| C111 | `Body::compress`, `compress_response_body`; the library is a parameter (`Prov`) that may cut its work into calls arbitrarily | loop invariant, case analysis; refuted for 206 and for `compress` alone |
| C112 | `Body::uncompress`, `get_decompressor_from_header`, the request side of the middleware (`DProv`) | loop invariants for size, memory and completeness; refuted for cut streams, unknown codings, `identity` |
| C113, C115 | `Body::as<Multipart>`, `MultipartReader`, the parser for one `feed` | the callbacks come in an order (`Gr`); the reader on them equals a reader that appends octet by octet; the reference reader on the grammar `Message` |
| C114 | `pipe<char>::put<Multipart>`, `content_length`, validation | what is written is a `Message`; then C113; refutations for each condition |
| C116 | `MultipartParser::feed` with marks, flags, index, look-behind buffer and the skipping search | simulation of a reference reader that reads one octet at a time (`Rel`, `step_sim`); refuted for trailing octets and header lines without a colon |
| C117 | the same, `ub` for every access outside a buffer | invariant `Safe`, termination measure |
| C118 | `parse_boundary`, `generate_boundary` (random characters a parameter) | equivalence, from C107 |
| C119 | `Body::as<Form>`, `Body::operator=<Form>`, `Form`; the percent coding is a parameter | equivalence with the list of pairs; round trip |
| C120–C122 | `join_paths`, `compile_tasks_and_register` of the three node kinds, `compile_all_routes`, `route_request` | the tree of declarations flattens to a list of registrations with the keys of the declared routes; then C07–C12 give the specification `Dispatch` |
| C123 | the same with refusals | registering up to the first refusal; C53 on every prefix |
| C124, C125 | `Router` with its flag, histories of operations and handles | invariant `Fresh`; declarations only grow (`Kept`); counterexamples for late handles and failed recompiles |
| C126–C129 | `push_request`, `process_queue`, `complete_active`, `fail_all_requests`, timeouts and network events as small steps over a stack of frames; a callback is a frame in which the user may call anything | refinement to a small `Book` machine; counting invariants |
| C127, C132 | `disconnect` with its loops | invariant on the frames below `discEnd`; explicit run for the return; unbounded retry loop as counterexample |
| C130 | `connect` and its callback list | ledger of callbacks over stack and list |
| C131 | idle states of the machine | liveness invariant `Advancing` for polite users; stuck state as counterexample |
| C133, C134 | `_active_batches` of the three clients | simulation against the slots of one batch |
| C135, C136 | `origin.cpp`, `prepare_request`, `ensure_absolute_uri`, `host_header_value` with any URI parser | exact characterization |
| C137–C139 | `push_request`, `process_pending_requests`, `complete_request`, `fail_request`, `fail_all_requests`, `check_request_timeouts` and the event handlers as small steps over a stack of frames | refinement to moves of a `Book` (requests held, queued, log); invariants on ids; `NoExpiry` histories for the pending limit |
| C140 | `connect`, `handle_connection_*` | ledger of callbacks over stack and list |
| C141 | GOAWAY handler, `fail_active_requests_after_goaway`, `finish_graceful_goaway_if_drained` | invariant over trace, flags and stack; explicit runs |
| C142, C143 | idle states; the send loop | invariants over `Smooth` and `Calm` histories; counterexamples |
| C144, C145 | `SchemaValidator::validate_recursive` and all it calls, the rules of `rule.cpp`; exceptions as `none` | a declarative meaning of schemas (`Semantics`), shown to exist and be unique; the validator decides it by induction on the depth; errors by a combinator calculus |
| C146, C147 | the predefined sanitizers | specifications by inverse functions, words, sublists |
| C148, C149 | `strip_html_tags` as a state machine, `escape_sql_like` | induction over the machine; SQL literals and `LIKE` as inductive relations |
| C150 | `split_path_for_sanitizer`, `traverse_and_apply`, `sanitize` | what is seen at every place before and after |
| C151 | `parse_value`, `validate_single`, `validate`, strict mode; custom rules and parsers as functions that may throw | a declarative reading (`ParamOk`), decimal numerals by the relation of C100; induction over the definitions |
| C152 | `Result` with its policy and children | invariant over all uses, mutual induction over merged children; a trace semantics for the order |
| C153 | `RequestValidator::validate` and the middleware | characterisation of the verdict, the errors and the sanitized request |
| C154 | the callbacks for fields, data, trailers and ends on the server | a declarative reading of RFC 9114 sections (`RequestSection`, `TrailerSection`), both directions; contents by the values under every name; any order of events by induction |
| C155 | the same on the client | the same with `ResponseSection`; interim responses by induction: their fields leak into the final response (`C155_interim_fields_leak_partial`) |
| C156 | the fields and trailers built for a message, `submit_*` | both directions against `sectionOf`, `trailersOf`, `Sendable`; two counterexamples: pseudo header values are not looked at, a bad `Trailer` is refused too late |
| C157 | C156 followed by C154/C155 | composition of the theorems |
| C158 | `tx_body`, `tx_offset`, `body_submitted` | invariant over all histories |
| C159 | `drain` with its budget, an owner that may destroy the connection in every call | invariant over all offers and destructions; the list of streams to tell is lost when `nghttp3` fails (`C159_error_forgets_partial`) |
| C160 | all functions of `3/client.cpp` that touch the queues, as frames of a stack machine | invariant counting completions, holds and destroyed requests over all histories (`C160_at_most_once`); no destroyed request in polite histories by an invariant on the stack (`C160_exactly_once_partial`); counterexample `C160_lost_partial` |
| C161 | the same | uniqueness of streams in all histories; own response in polite histories; counterexample `C161_mix_up_partial` |
| C162 | the same, with flags for a null dereference and for a destruction during a read | invariants; three counterexamples |
| C163 | `connect`, its timer, success and failure | counting invariant over all histories; three counterexamples for the other clauses |
| C164 | the counters | invariant over all histories |
| C165 | all functions of `2/protocol/client.h` that send DATA or change windows | invariant over the small steps relating windows to the log; statement on the log only |
| C166 | `send_request` and all that changes the states of streams | invariant: every stream open in the log counts |
| C167 | `process_complete_response_if_ready`, `send_rst_stream` and their callers | invariants over all histories (at most one, resets); function-level theorems from any reachable state (ends) |
| C168 | the receiving half | invariant: the response under assembly is what the log says |
| C169 | the sending half | invariant; partial: DATA can follow trailers sent early by the application, announced trailers may never be sent (examples in `TheoremsExamples.lean`) |
| C170 | DATA and WINDOW_UPDATE | invariant on the receive windows; function-level theorem from any reachable state |
| C171 | the counter of replies | invariant |
| C172 | all | invariant; partial: the acknowledgement of SETTINGS and trailers can follow |
| C173 | `prepare_request_headers`; `process_complete_header_block` of the server (area Srv) | equational; composition of client and server |
| C174 | all | the partial theorem follows from C167; three counterexamples |
| C175 | `deliver_frame`, `receive`, `next_frame` | invariant relating the queue to the log of frames come and handed out |
| C176 | all calls and handlers of `coro_client` and `coro_session` | invariants on the awaiters over all histories; statements on the log |
| C177 | `deliver_frame`, `set_pending_cap` | invariant |
| C178 | the writers of Close frames | invariant for the answer; partial: three counterexamples |
| C179 | `receive`, `next_frame`, destruction of awaiters | from any reachable state; partial: a counterexample for cancelled receivers |
| C180 | `populate_handshake_response` and its helpers | equivalence with a specification in terms of lists and blanks |
| C181 | `validate_handshake_response`, `on(response)`, `set_subprotocols`, the request of the client | equivalence with the specification; composition of client and server |
| C182 | `accept_upgrade`, `spawn_run_loop` | case analysis, induction over the calls; partial: a counterexample for the status of a refusal |
| C183 | `make_host_header_value` | case analysis |
| C184 | `ensure_connection`, `dispatch(...)`, `reap_closed_connections`, `graceful_shutdown` | invariant on live objects and reads under way; partial: a counterexample for `graceful_shutdown` |
| C185 | `session`, `_sessions`, `dispatch(connection_closed / stream_closed)` | invariants on contexts; an invariant relative to the closing call; partial: a counterexample for a closure during routing |
| C186 | `graceful_shutdown`, `maybe_finish_graceful_shutdown` and its callers | case analysis of a step and the invariant on `_shutdown_connections`; partial: two counterexamples |
| C187 | `operator<<`, `send_response`, `on_http3_request` | case analysis of a step with the invariants above |
| C188 | the adapters, `Context` | invariant: either the request is (to be) finalised, or the last invocation is the only one that is to say how it ends; depth = scoped tasks on the stack; with C38 |
| C189 | the adapters | invariant on `completion_count_before` for all histories; persistence of the `next_called` flag; case analysis of a step |
| C190 | `Form`, `Body::operator=<Form>`, `as<Form>` | the writer is a join of the pairs; split of a join; C191 |
| C191 | `Body::as<Form>` | the loop is a fold over the split at `&` (C05); induction |
| C192 | the completion callback on top of `Context` | the verdict is equal to the specification by cases on the answer; the refusal is `complete(COMPLETE)` after a status: C39 |
| C193 | token extraction, the body sent | cases; the body is a join of pairs, read back with C191 |
| C194 | the hook, registration and running of hooks | the hook is a fold of `set_header` over a list with distinct names; induction over the operations |
| C195 | `process`, the hook | invariant of the operations that leave the nonce alone; a counterexample for the others |
| C196 | the registrations, `process` | specification on the list of registrations; induction from its end |
| C197 | `process` | case analysis on top of C39 |
| C198 | `process` of both | case analysis on top of C39, C40; a counterexample for a child that throws after CONTINUE |
| C199 | `process` and the hooks of both | invariants over the sequence of events; a counterexample for two timers of one name |
| C200 | the table of contexts, all callbacks of the session | invariants of the step function |
| C201 | the same, with iterators | invariant; a counterexample for stream errors that come while a context is cancelled, so the claim is partial |
| C202 | `operator<<` | case analysis, lemmas on header maps (`Mid/Http.lean`) |

## 4. What is modelled and what is not

Modelled, function by function: the files of the table in section 2, in the line ranges cited by each
definition. Simplifications are in the comments of the definitions.

Not modelled:

* Threads, sockets, TLS, timers, allocation failure, C++ object lifetimes.
* llhttp (external HTTP/1 parser): a parameter with streaming laws in area Parse.
* OpenSSL, zlib, JSON, `std::regex`, `qb::` utilities (hash maps, URIs, durations): parameters or
  standard meaning, noted where they occur.
* `2/protocol/server.h` is modelled (area Srv) except priorities, debug texts, failing writes and
  callbacks that re-enter from the error and GOAWAY events. `2/protocol/client.h` and `3/`, except where a
  later area says so; the routing DSL above the radix tree; recaptcha; logging; transform middlewares.

## 5. Axioms

Regenerated by `tools/axioms.py` (`#print axioms` on every property theorem; `vcheck` checks it too).
Only Lean's three standard axioms occur.

<!-- axioms -->
* **none** (11): `C130_outcome`, `C146_example`, `C147_example`, `C149_example`, `C152_example`, `C159_error_forgets_partial`, `C192_action_ignored`, `C28_false_negative`, `C28_false_sentinel`, `C28_false_shrink_refused`, `C84_long_identifier_forgotten`
* **propext** (76): `C03_escape_safe`, `C06_fields_unique`, `C104_not_claims`, `C104_refuted`, `C105_manager_exact`, `C116_refuted`, `C117_phantom_data`, `C117_refuted`, `C120_declare_controller`, `C120_declare_effect`, `C120_handle_local`, `C126_example`, `C126_loss_example`, `C127_example`, `C128_sent_on_closing`, `C129_example`, `C130_disconnect_tells_nothing`, `C130_example`, `C132_disconnect_returns_partial`, `C132_example`, `C133_example`, `C134_h2_reports_success`, `C140_already_open`, `C146_round_trip`, `C147_case`, `C148_comment`, `C148_example`, `C148_full_is_false`, `C148_no_tag_partial`, `C148_sublist`, `C148_tag`, `C148_text`, `C148_unterminated`, `C149_full_is_false`, `C149_like_partial`, `C149_literal`, `C150_example`, `C150_path`, `C151_silent_rule`, `C161_mix_up_partial`, `C162_crash_in_send_partial`, `C162_crash_partial`, `C162_disconnect_in_callback_partial`, `C163_connected_at_once`, `C163_forgotten_partial`, `C163_stale_timer_partial`, `C163_told_wrong_partial`, `C189_throw_after_next_refuted`, `C190_added`, `C191_meaning`, `C197_ended`, `C198_cond_selects`, `C198_cond_throws`, `C198_false_throw_after_continue`, `C199_false_same_name`, `C201_false_disconnect`, `C29_closed_final`, `C39_complete_finalises`, `C39_double_completion_runs_on`, `C39_none_after_termination`, `C40_error_runs_chain`, `C40_false_prerouting`, `C40_throw_is_error`, `C41_false_reentrant_cancel`, `C41_late_calls_ignored`, `C41_sticky`, `C47_forbidden_exact`, `C53_false_poisoned`, `C59_false_garbage`, `C62_false_large_number`, `C71_unique`, `C78_forbidden`, `C82_false_skew`, `C84_false_no_address`, `C84_peer_address`, `C84_precedence`
* **propext, Classical.choice, Quot.sound** (406): `C01_decode_encode`, `C04_iequals_equivalence`, `C04_iequals_exact`, `C04_iequals_lower`, `C07_bindings_unique`, `C07_match_sound`, `C08_match_complete`, `C09_match_priority`, `C09_priority_strict`, `C100_admitted_exact`, `C100_anonymous_exact`, `C100_refused_exact`, `C100_roles_partial`, `C101_empty_key`, `C101_no_anonymous`, `C101_role_gate_partial`, `C103_header_exact`, `C103_jwt_header_exact`, `C104_claims_partial`, `C105_algorithm_names`, `C105_factory`, `C105_jwt_exact`, `C105_jwt_refused`, `C106_identity_partial`, `C106_numeric_subject`, `C106_refuted`, `C107_attributes_exact`, `C107_first_counts`, `C107_no_control`, `C107_unambiguous`, `C108_content_type`, `C108_total`, `C109_acceptable`, `C109_chosen`, `C109_listed`, `C109_quality`, `C10_accepted_wellformed`, `C10_frame`, `C10_replace`, `C10_throw_no_effect`, `C110_first_usable`, `C110_late_refusal_refuted`, `C110_order_refuted`, `C110_sound`, `C111_compress`, `C111_faithful`, `C111_partial_content_refuted`, `C112_allocation`, `C112_bounded`, `C112_request`, `C112_truncated_refuted`, `C112_unknown_coding_refuted`, `C112_whole`, `C113_read`, `C114_round_trip`, `C115_limits`, `C116_cuts_partial`, `C116_error`, `C116_reference`, `C117_in_bounds`, `C117_no_exception_partial`, `C117_reader`, `C118_found_iff`, `C118_throws_iff`, `C119_every_body`, `C119_read`, `C119_round_trip`, `C11_allowed_iff_match`, `C11_not_found_iff`, `C120_dispatch`, `C120_route_runs`, `C121_allow_exact`, `C121_not_allowed_iff`, `C121_not_found_iff`, `C122_not_found_chain`, `C122_set_not_found`, `C123_compile_iff`, `C123_recompile`, `C124_compile_restores`, `C124_history_partial`, `C125_refused_throws_partial`, `C126_exactly_once`, `C127_disconnect_completes_all`, `C12_same_segments`, `C130_connect_callbacks`, `C133_batch`, `C134_h2_partial`, `C134_h3_truthful`, `C135_default_port`, `C135_equivalence`, `C135_port_unique`, `C135_same_iff`, `C136_accepted`, `C136_headers`, `C136_host_header`, `C136_not_refused`, `C136_relative_accepted`, `C137_exactly_once`, `C138_limit_partial`, `C139_stats`, `C139_within_callbacks`, `C13_int_roundtrip`, `C140_connect_callbacks`, `C141_closed_when_drained`, `C141_no_send`, `C142_not_forgotten_partial`, `C142_reasons_partial`, `C144_exact`, `C144_meaning_exists`, `C144_meaning_unique`, `C144_too_deep`, `C14_int_decode_exact`, `C150_exact`, `C150_others`, `C150_rule`, `C153_exact`, `C153_middleware`, `C153_verdict`, `C154_body_any_order`, `C154_request_content`, `C154_request_delivered`, `C155_response_content_partial`, `C155_response_delivered`, `C156_request_sent`, `C156_request_wellformed`, `C156_response_sent`, `C157_request_arrives`, `C157_response_arrives`, `C159_bytes_once`, `C159_end_once`, `C159_no_use_after_death`, `C15_huffman_encoding`, `C15_huffman_roundtrip`, `C15_should_use_huffman`, `C160_at_most_once`, `C160_exactly_once_partial`, `C161_streams_unique`, `C163_connect_once`, `C163_timer_idle`, `C164_statistics`, `C165_send_windows`, `C166_opening`, `C167_cut_reported`, `C167_data_ends`, `C167_head_ends`, `C167_one_outcome`, `C167_reset_reported`, `C168_response`, `C169_body_partial`, `C169_ends`, `C16_huffman_canonical`, `C16_huffman_decode_exact`, `C170_grants`, `C170_honoured`, `C171_replies_bounded`, `C172_quiet_after_goaway_partial`, `C173_authority`, `C173_clean`, `C173_fields`, `C173_server_takes`, `C174_reason_partial`, `C175_in_order`, `C175_next`, `C175_none_lost`, `C175_waiting`, `C176_once`, `C176_released`, `C176_suits`, `C176_true`, `C177_bounded`, `C177_limit`, `C178_echo_partial`, `C179_second`, `C17_decoder_table_bounded`, `C17_keeps_most_recent`, `C17_size_bound`, `C180_accepts`, `C180_response`, `C181_offer`, `C181_pair`, `C181_takes`, `C182_accepted`, `C182_once`, `C182_refusal`, `C183_host`, `C184_cause`, `C184_idle`, `C184_live_partial`, `C184_reading`, `C184_reaped`, `C184_single`, `C185_accounted_partial`, `C185_cause`, `C185_closed`, `C185_once`, `C185_orphan_partial`, `C185_owner`, `C185_settled`, `C186_cut_partial`, `C186_finish_partial`, `C186_only`, `C187_asked`, `C187_length`, `C187_revive`, `C187_submit`, `C188_answered`, `C188_at_most_once`, `C188_one_waited_for`, `C188_scopes`, `C189_completes`, `C189_next`, `C189_next_once`, `C189_returns`, `C189_throws`, `C18_live_slots_distinct`, `C18_ring_refines_list`, `C190_empty_name_lost`, `C190_injective`, `C190_round_trip`, `C192_only`, `C193_injective`, `C193_no_injection`, `C194_hook_only`, `C194_hook_sets`, `C194_one_value`, `C194_sent`, `C195_nonce_sent`, `C196_called`, `C196_in_charge`, `C199_responses_logged`, `C199_timed`, `C19_block_roundtrip`, `C19_codec_synchronised`, `C200_closed`, `C200_hook_once`, `C200_hook_reason`, `C200_kept`, `C201_iterators_partial`, `C202_dropped`, `C202_send`, `C20_secret_representation`, `C20_secrets_never_indexed`, `C21_header_list_limit`, `C21_loop_bound_irrelevant`, `C23_frames_roundtrip_partial`, `C23_length_field`, `C23_segmentation`, `C23_single_frame`, `C24_received`, `C24_shape`, `C25_not_interleaved_partial`, `C25_released_partial`, `C26_empty_malformed_rejected`, `C26_empty_padded_accepted`, `C26_malformed_rejected_partial`, `C26_pad_too_long`, `C26_padded_data`, `C27_frame_size`, `C28_peer_window_partial`, `C28_window_no_overflow`, `C31_request_pseudo_exact`, `C32_roundtrip`, `C32_serialize_exact`, `C33_reassembly`, `C34_accepts_legal`, `C34_fail_sends_close`, `C34_stream`, `C35_buffer_limit`, `C35_message_limit`, `C35_oversize_refused`, `C36_utf8_exact`, `C37_close_fails_iff`, `C37_close_valid`, `C38_at_most_once`, `C38_exactly_once_at_destruction`, `C38_finalised_responded`, `C39_tasks_in_order`, `C39_tasks_in_order_hooks`, `C40_error_chain_once`, `C42_find_exact_exact`, `C42_find_name_exact`, `C43_nothing_after_failure`, `C44_header_fields`, `C44_received_exactly`, `C46_response_pseudo_exact`, `C48_te_exact`, `C49_escalation_exact`, `C49_setting_exact`, `C49_stream_id_exact`, `C50_chunk_independent`, `C51_delivered_valid`, `C52_replies_legal`, `C53_accept_iff_partial`, `C53_accepted_sound`, `C54_decode_exact`, `C55_encode_accepts_iff`, `C56_unannounced_shrink`, `C57_calendar_exists_unique`, `C57_format_http_date`, `C58_parses_asctime`, `C58_parses_imf_fixdate`, `C58_parses_rfc850`, `C58_roundtrip`, `C59_imf_exact_partial`, `C59_only_real_dates`, `C59_reads_exactly`, `C60_contained_partial`, `C61_no_link_partial`, `C62_partial_content`, `C62_range_exact`, `C62_range_inside`, `C62_unsatisfiable`, `C63_etag_distinguishes`, `C63_false_date_with_tag`, `C63_not_modified`, `C63_plain_conditional_partial`, `C63_weak_comparison_partial`, `C64_content_type`, `C64_passes_on`, `C64_serves`, `C64_serves_range`, `C64_serves_type`, `C64_size_limit`, `C65_completion_remembered`, `C65_release`, `C66_header_exact`, `C66_serializable_iff`, `C67_roundtrip_partial`, `C68_attributes`, `C68_name_value`, `C68_refused_iff`, `C69_entries`, `C69_no_control`, `C69_quoted`, `C69_unterminated`, `C69_wellformed`, `C70_last_call`, `C70_one_entry`, `C70_request`, `C70_response`, `C70_update_header`, `C70_update_readable`, `C72_accepted`, `C72_false_empty_chunked`, `C72_request_partial`, `C73_accepted`, `C73_bodiless`, `C73_false_declared_length`, `C73_false_empty_chunked`, `C73_response_partial`, `C74_pipeline`, `C75_head`, `C76_false_piece`, `C76_fragmentation`, `C76_message`, `C77_false_trailers`, `C77_no_trailers_partial`, `C79_first_window`, `C79_limit`, `C80_no_early_refusal`, `C82_isolation_partial`, `C83_refused_until_reset`, `C83_served_after_reset`, `C85_exact`, `C85_last_rule_decides`, `C86_grant`, `C86_no_wildcard_credentials`, `C86_reflects_with_credentials`, `C86_vary`, `C87_expose`, `C87_frame`, `C87_preflight`, `C87_who_answers`, `C88_connection_window`, `C88_stream_window_partial`, `C89_last_stream`, `C89_no_request_after`, `C89_one_goaway`, `C90_end_stream`, `C90_frame_size`, `C90_one_response`, `C90_unanswered`, `C91_answered`, `C91_blocked`, `C91_completes`, `C92_connection`, `C92_connection_overrun`, `C92_connection_room_partial`, `C92_stream_overrun`, `C92_stream_window`, `C92_stream_within`, `C93_limit`, `C93_refused`, `C94_delivered`, `C94_head`, `C94_once`, `C94_request`, `C95_continuation`, `C95_ping`, `C95_rapid_reset`, `C95_replies`, `C95_reset_spared`, `C96_in_step_partial`, `C97_throw_partial`, `C98_goaway_partial`, `C99_push_allowed`
* **propext, Quot.sound** (224): `C01_encode_safe`, `C01_encode_unreserved`, `C02_decode_exact`, `C02_decode_incomplete`, `C02_decode_length`, `C02_decode_no_percent`, `C02_decode_plus`, `C03_escape_injective`, `C03_escape_no_markup`, `C04_lower_exact`, `C05_split_trim_exact`, `C05_split_view_exact`, `C05_trim_exact`, `C06_split_by_exact`, `C06_split_by_join`, `C06_split_by_parts`, `C06_split_string_exact`, `C06_split_string_pred`, `C100_roles_refuted`, `C101_refuted`, `C102_numeric_id_refused`, `C102_quoted_id_confused`, `C102_readback_exact`, `C102_refuted`, `C102_round_trip_partial`, `C104_nbf_wraps`, `C104_numeral_exact`, `C109_bare_point_refuted`, `C111_cut_refuted`, `C112_identity_refuted`, `C112_refused`, `C112_several`, `C112_single`, `C113_hidden_close`, `C113_preamble`, `C113_truncated`, `C114_content_length`, `C114_delimiter_in_data`, `C114_leading_space`, `C114_no_parts`, `C114_written_iff`, `C118_generated`, `C11_allowed_sorted`, `C124_false_late_handle`, `C125_clear_restores`, `C125_false_half_table`, `C126_loss_completes`, `C127_nothing_sent`, `C128_fifo`, `C128_one_at_a_time`, `C128_response_to_last`, `C129_admission`, `C129_limit`, `C129_stats`, `C12_segments_exact`, `C12_segments_wf`, `C131_example`, `C131_full_is_false`, `C131_not_forgotten_partial`, `C131_stuck_forever`, `C132_retry_never_ends`, `C133_numbers`, `C135_example`, `C136_example`, `C137_example`, `C137_response`, `C137_sent_once`, `C138_admission`, `C138_example`, `C138_limit_is_false`, `C138_streams`, `C139_example`, `C13_int_encoding`, `C140_disconnect_does_not_cancel`, `C140_example`, `C140_lost`, `C140_outcome`, `C141_example`, `C141_failed_requests`, `C141_queue_survives`, `C142_example`, `C142_expired`, `C142_full_is_false`, `C142_lost_example`, `C142_none_on_a_dead_wire`, `C143_example`, `C143_full_is_false`, `C143_no_crash_partial`, `C143_retry_crashes`, `C144_enum_wraps`, `C144_example`, `C144_exclusive_number_throws`, `C144_large_integers`, `C145_verdict`, `C146_no_markup`, `C146_references`, `C147_alphanumeric`, `C147_normalize`, `C147_trim`, `C151_all`, `C151_builtin`, `C151_example`, `C151_read`, `C151_single`, `C151_value`, `C152_add`, `C152_budget`, `C152_cuts_characters`, `C152_history`, `C152_order`, `C152_throws`, `C153_example`, `C155_interim_fields_leak_partial`, `C156_dirty_path_partial`, `C156_late_refusal_partial`, `C158_buffer_stays`, `C158_one_body`, `C159_all_told_partial`, `C160_lost_partial`, `C161_own_response_partial`, `C162_close_while_reading`, `C162_no_crash_partial`, `C162_not_freed_while_reading_partial`, `C163_waits_for_attempt_partial`, `C16_prefix_free`, `C174_disowned_partial`, `C174_end_before_head_partial`, `C174_no_trailers_partial`, `C178_no_echo_partial`, `C178_stuck_partial`, `C178_twice_partial`, `C179_cancelled_partial`, `C181_offered`, `C182_refused`, `C182_refused_ok_partial`, `C184_shutdown_partial`, `C186_stuck_partial`, `C187_head`, `C187_kept`, `C189_signalled`, `C190_built`, `C191_read`, `C192_late`, `C192_passes`, `C192_refuses`, `C192_refuses_forever`, `C192_refuses_forever_deferred`, `C192_verdict`, `C193_no_token`, `C193_token_sent`, `C195_false_policy_without_nonce`, `C196_generic`, `C197_status`, `C198_transform`, `C199_requests_logged`, `C22_desynchronises`, `C22_failed_encode_partial`, `C22_false`, `C23_false_priority`, `C24_end_headers_exactly_last`, `C24_fragment_size`, `C24_peer_limit`, `C24_reassembles`, `C24_within_advertised`, `C25_false`, `C25_false_stuck`, `C26_connection_frames_on_stream_zero`, `C27_oversize_rejected`, `C28_overflow_refused`, `C29_predicates`, `C29_state_exact`, `C29_steps_legal`, `C30_content_length_exact`, `C30_content_length_reject`, `C31_order_exact`, `C34_dead_is_final`, `C39_continue_starts_next`, `C39_end_of_chain_finalises`, `C39_none_after_complete`, `C39_start_runs_first`, `C40_error_in_error_chain`, `C40_fatal_500`, `C41_cancel_503_partial`, `C41_status_503`, `C41_task_notified`, `C43_preface`, `C43_preface_accepted`, `C44_empty_received_exactly`, `C45_no_zero_update`, `C45_receive_window`, `C45_small_window`, `C47_header_field_exact`, `C47_no_injection`, `C49_frame_size`, `C56_false_own_capacity`, `C60_false_index_symlink`, `C61_false_index_symlink`, `C61_false_missing_parent`, `C63_false_star_in_tag`, `C63_star`, `C64_head_like_get`, `C65_no_finalisation_in_scope`, `C67_false_lossy`, `C69_false_escape`, `C70_remove_result`, `C71_unambiguous`, `C72_false_line_break`, `C78_delivers`, `C78_read_splitting`, `C78_truncated`, `C78_until_close`, `C81_bounded`, `C81_full_only_if_busy`, `C83_remaining_is_promised`, `C84_last_hop`, `C84_long_identifier`, `C88_lowered_window_refuted`, `C90_two_responses_refuted`, `C92_stall_refuted`, `C96_in_step_refuted`, `C97_throw_data_refuted`, `C98_goaway_refuted`, `C99_push_answer_refuted`, `C99_push_promise`
<!-- /axioms -->

## 6. Where the code disagrees with the property one would expect

Each is a theorem (`*_false*` or named below) about the model, so it is a machine-checked counterexample;
the English property is then proved only on the complement (`_partial`).

* HPACK: `Encoder::encode` inserts earlier fields before it rejects a later one (C22). The encoder's
  capacity is set from the endpoint's own SETTINGS, not the peer's (C56). The encoder never emits a size
  update. A sensitive field identical to a table entry is emitted as an index.
* HTTP/2 framer: empty HEADERS without END_HEADERS does not open a block; empty CONTINUATION with
  END_HEADERS does not close it (C25); zero-length PADDED frames are delivered (C26).
* HTTP/2 windows: shrinking below zero is refused; -1 is a sentinel that a window can reach (C28).
* Router: a refused `add_route` leaves nodes behind that refuse later valid routes (C53).
* Context: `complete(ERROR)` in a PRE_ROUTING hook enters the error chain twice (C40); a re-entrant
  `complete()` inside `cancel()` wins (C41); a task that completes twice runs the chain on (C39).
* Dates: leftovers of numeric fields and day names are not checked (C59).
* Static files: the index file is opened without re-resolving, so a symbolic link leaves the root (C60, C61);
  range numbers above 2^63-1 are refused (C62); a tag holding `,*,` is a wildcard; `If-Modified-Since` is
  evaluated although `If-None-Match` is present (C63).
* Cookies: quotes and empty paths are lost in a round trip (C67); backslash escapes smuggle CR/LF into cookie
  values (C69).
* HTTP/1.1 writer: chunked + empty body writes no terminating chunk (C72, C73); a declared non-zero
  Content-Length with an empty body is not refused (C73); path and query are written unchecked (C72).
* HTTP/1.1 reader: a body piece above 16 MiB is refused depending on fragmentation (C76); trailers are merged
  into the header map after validation (C77).
* Rate limiter: with a session that has no address, untrusted headers identify the client (C84); two clock
  readings per call let a sweep by another client move a window (C82).
* CORS: `*` with credentials reflects every origin with credentials (C86_reflects_with_credentials).
* HTTP/2 server: a lowered initial window is not applied to half-closed (remote) streams, so DATA exceeds it
  (C88, server.h 2112); answering twice restarts the body (C90, 1085-1093); DATA above the declared or maximal
  length is never credited to the connection window (C92, 339, 343); header blocks of refused or closed streams
  are not decoded, so the HPACK tables drift apart (C96, 428, 432, 449, 476, 482), and a refused HEADERS
  followed by CONTINUATION ends the connection; a handler that throws on a request that ended with DATA
  leaves a counted stream behind (C97, 376); GOAWAY of the client drops its own requests above the number
  it names (C98, 862); pushed streams cannot be answered (C99, 1081), while DATA of the client on them is accepted.
* Header values: `q=1.` is a refusal (C109, compression.h 397); `content_encoding` ignores late refusals and qualities (C110, headers.cpp
  379-421); partial and strongly tagged responses are compressed (C111, compression.h 323); cut-off streams are accepted, unknown codings
  ignored, `identity` refused (C112, body.cpp 498-562).
* Multipart bodies: cut-off bodies are accepted, a delimiter followed by CR and not LF hides the closing delimiter (C113, body.cpp 768,
  multipart.cpp 166-176); `Multipart` is written without a look at its data, so data can inject parts (C114); a header line without a
  colon leaves the index standing, so octets of the look-behind buffer that were never received become data, or `feed` throws (C117,
  multipart.cpp 322-327); a line break after the closing delimiter in the same piece undoes the success (C116, multipart.cpp 378-380).
* Router: a route added through a group handle after compiling is not seen (C124, router.h 607-613); when `compile()` throws on a router
  that was compiled before, requests go on on the half-built table (C125, router.h 598-604).
* HTTP/1.1 client: `disconnect()` followed by `push_request()` inside a response callback leaves the client stuck: the deferred reset
  destroys the new connection while the connecting flag stays set (C131). A callback that pushes its request again when it fails keeps
  `disconnect()`, and the destructor, in their loop for ever (C132). `disconnect()` during a connection attempt never tells the connect
  callbacks (C130_disconnect_tells_nothing). A request pushed from the callback of a `Connection: close` response goes out on the closing
  connection and fails with 502 (C128_sent_on_closing).
* HTTP/2 client: when the connection fails, the unanswered requests of a batch are reported with status 200 OK (C134, 2/client.cpp
  584-588). The batch entry is erased by an iterator after the user callback ran (2/client.cpp 292-296).
* HTTP/3 client: batches are not counted against the limit of pending requests.
* HTTP/2 client: `fail_request` (stream error, timeout) does not call `process_pending_requests`, so requests waiting for a free stream stay
  queued on a connection that is up and idle (C142). The send loop does not check the protocol object again after a callback: a callback
  that disconnects and pushes, or one that pushes after the encoder ended the connection, makes it dereference null (C143, 2/client.cpp
  371). Requests kept by the timeout handler are not counted while its callbacks run (C138). `disconnect()` during an attempt neither
  cancels it nor tells the connect callbacks (C140_disconnect_does_not_cancel).
* Schema validator: beyond 64 levels everything is rejected, so a `not` 64 deep accepts (C144_too_deep), and `additionalProperties` and
  `propertyNames` start the count again; a numeric `exclusiveMinimum` (as in later drafts) and a pattern that does not compile throw out of
  `validate` for each request (C144_exclusive_number_throws); integers above 2^53 are compared as doubles (C144_large_integers);
  `enum: [-1]` accepts 18446744073709551615 (C144_enum_wraps).
* Sanitizers: `strip_html_tags` leaves `<<img ...>` as it is (C148_full_is_false); `escape_sql_like` does not escape the backslash
  (C149_full_is_false).
* Parameters: a custom rule that rejects without adding an error is overruled (C151_silent_rule). The mode of the path validator is
  never looked at. Only `parse_error` is caught around the body, so a schema that throws (C144) leaves the middleware as an exception.
* Errors: `Preview` may cut a character in two (C152_cuts_characters); the middleware's `dump` of such an error throws, as it does for
  a query value that is not UTF-8 (`?id=%ff`), so that a request that should get 400 ends in an exception.
* HTTP/3: fields of interim responses (103) end up in the final response (C155_interim_fields_leak_partial); `:path` and other pseudo
  header values are not validated on the way out (C156_dirty_path_partial); a bad `Trailer` is refused after fields and body were given to
  `nghttp3` (C156_late_refusal_partial), and the peer then gets a complete message of a call that returned false; when `nghttp3` fails, streams that ended in the same round are
  never reported as drained (C159_error_forgets_partial). Seen while reading, dependent on `nghttp3` and not modelled: `recv_data_cb` never
  extends the flow control credit; `drain` stops after 256 rounds without being scheduled again; `graceful_shutdown` and `ensure_connection` use
  the connection after a drain that may have destroyed it; a body given in reply to HEAD is sent.
* HTTP/3 client: `disconnect` fails the requests while the connection still counts as there, so a retry in a failure callback is sent on the old connection and stays in
  the map of streams; after the next connect it gets the response of another request (C161_mix_up_partial), and the request with the same stream number is
  destroyed without a callback (C160_lost_partial). `disconnect` in a response callback destroys the connection object during its own read
  (C162_disconnect_in_callback_partial); `disconnect`, or a loss of the connection reported from a send, followed by a new request in the callback, makes the sending loop use a null
  pointer (C162_crash_partial, C162_crash_in_send_partial). `disconnect` during an attempt leaves its callback uncalled (C163_forgotten_partial); the timer of an attempt that has failed ends the next
  one (C163_stale_timer_partial); a callback may be told of a connection that is gone (C163_told_wrong_partial). Seen and not stated: batches ignore the limit of pending
  requests; requests given in a callback of a lost connection are failed at once, so `auto_reconnect` never has work to do; a response that arrives during the submission of its request is dropped and
  the request times out; after a GOAWAY the requests the server will not process wait for their timeouts.
* HTTP/2 client connection: a response ended by DATA before its HEADERS, or without the trailers it announced, is dropped without a report (C174_end_before_head_partial,
  C174_no_trailers_partial); a request above the last stream of a GOAWAY without a response head gets neither response nor error (C174_disowned_partial). Trailers the application sends before the
  body is out are followed by DATA; trailers a request announced are not sent when its body goes out at once, so the request never ends (C169). SETTINGS is acknowledged after the GOAWAY it
  caused, and trailers can be written after GOAWAY (C172). The client passes on `http2-settings`, which the server refuses (C173). A zero increment on an idle stream makes the client
  write RST_STREAM on it; DATA in flight on a stream the client reset closes the connection (examples). Seen and not stated: frames the framer refuses end the connection without GOAWAY and without a report (`not_ok` is
  called before `handle_framer_detected_error`); DATA on a half-closed stream is refused without being counted on the connection, and DATA beyond the declared length is not given back until more DATA
  comes; identifiers are not checked for exhaustion; a response before the end of the request leaves the stream half-closed with its body never sent, and it counts against the limit for ever; a
  graceful GOAWAY is never looked at again, so the connection is not closed when the last stream ends; header blocks on unknown or reset streams are not decoded, so HPACK gets out of step.
* WebSocket coroutines: `close_async` after the peer's Close writes a second Close frame (C178_twice_partial); `close_async` with a status that may not be sent throws but leaves its awaiter
  installed, so every later `close_async` throws while the connection is up (C178_stuck_partial), and a session then does not answer the peer's Close (C178_no_echo_partial); a destroyed
  `receive` makes later ones throw and swallows the next frame (C179_cancelled_partial); a lower limit does not shorten the queue (example beside C177). Seen and not stated: a session that fails
  the connection writes its Close past `_close_sent`; an exception from `run` writes Close 1011 whatever was written before; `receive` before `connect` is released by `connect`.
* WebSocket handshake: an upgrade refused by the hook (or a hook that throws) without a status of its own is answered 200 OK: the test `status == 0` never holds, a response starts with
  200 (C182_refused_ok_partial). Only the first value of `Connection` (and of each other field) is looked at, so a second `Connection` field with `Upgrade` is not found. The handshake appends to
  the fields the hook set: a hook that sets `Upgrade` itself makes the response invalid for the client of this library.
* HTTP/3 server: `graceful_shutdown` keeps a raw pointer to a connection across `submit_shutdown_notice`; if that makes the endpoint report the closure of the connection, `after_dispatch_events`
  frees it, and `shutdown()` and `is_drained()` are called on freed memory (C184_shutdown_partial). `dispatch(connection_closed)` walks `_sessions` with an iterator while `cancel_context` runs
  user code. A connection closed while a request is being routed leaves the context orphaned: neither cancelled nor finished (C185_orphan_partial). `dispatch(stream_closed)` does not call
  `maybe_finish_graceful_shutdown`: a connection that shuts down stays open if its last request is given up (C186_stuck_partial); a request being routed is not counted as active, so
  `graceful_shutdown` called then, also by the handler itself, closes the connection before it is answered (C186_cut_partial). Data that arrive after a connection was reaped, or on one refused for
  its ALPN, make a connection object again.
* Handler adapters: a middleware that throws after it called `next()`, while the next handler is still at work, has the request answered with 500 (or has the error chain started), and the
  outcome of the handler at work is lost (C189_throw_after_next_refuted): the `catch` does not look at `next_called`, and its comment ("if middleware throws, it means it didn't call complete") is not so.
* Forms in bodies: what is stored under the empty name is written (`=v`) and dropped when it is read (C190_empty_name_lost).
* reCAPTCHA: the `action` and `hostname` that the service reports are stored but never compared with anything (C192_action_ignored), so a token obtained for another action or another site under the same key is accepted.
* Security headers: with nonces enabled the configured policy is set only if the context still holds a `std::string` under `csp_nonce` when the response is sent; otherwise the response goes out
  without any Content-Security-Policy (C195_false_policy_without_nonce). HSTS depends on the scheme of the request URI, which for HTTP/1.1 is whatever `qb::io::uri` makes of the request target (`1.1/protocol/base.h` 214),
  not on the connection: over TLS with an origin-form target there is no scheme `https` in it to find.
* Error handling: a task that completes with ERROR and sets no status reaches the error middleware with the default status 200, for which a handler for 400..599 is not in charge: without a generic handler the
  response is sent with 200 (example in `Bim/Theorems.lean`).
* Conditional middleware: a child that calls `complete(CONTINUE)` and then throws is caught by `ConditionalMiddleware::process` (conditional.h 96-102), which starts the error chain while the next task is at work
  (C198_false_throw_after_continue); its `cancel` does not reach the child.
* Timing: two timing middlewares of one name (the default one) share the start time in the context, so the outer one reports the time of the inner one (C199_false_same_name).
* HTTP/2 session: `on(disconnected)` and `on(extracted)` cancel the contexts in a range-for over `_contexts` (http2.h 345-348, 362-365). Cancelling finalises the context, whose callback answers through the session
  (router.h 347-359); if the protocol refuses that answer (for example a field `Connection`, or a content-length that does not fit, which the handler had set), `send_rst_stream` reports a stream error to the
  session at once (`2/protocol/server.h` 1449), which erases the entry under the loop: undefined behaviour, provided the session object is still alive then (C201_false_disconnect).
* HTTP/2 session: a response with a status outside 100..599 is dropped without RST_STREAM (http2.h 195-199, C202_dropped): the client waits until the stream is cleaned up as idle.
* Authentication: a role gate without an earlier user accepts tokens signed with the empty key (C101, auth.h 450);
  optional authentication with roles passes anonymous requests (C100); string claims are parsed as JSON, so
  identifiers that are JSON texts are lost or become another identifier (C102, manager.cpp 330); `nbf` from 2^63 on
  wraps (C104, manager.cpp 70); numeric subjects vanish between the two middlewares (C106).
* Seen while reading, no theorem: a decoding failure resets only the stream (RFC 9113 wants a connection error);
  `send_response` does not check that the connection is active; stream errors found by the framer stop the
  protocol without GOAWAY; the HPACK decoder's limit is never set by the protocol classes; client.h 118 shadows
  `_our_max_frame_size`; content negotiation ignores `q=0` after `*` and the order of `q`; serialising a request
  with an uninitialised method aborts; static directory listings do not escape `href`; only the first
  X-Forwarded-For line is read.
