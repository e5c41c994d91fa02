{
 "claims": [
  {
   "property": "C01",
   "status": "proved",
   "theorems": [
    "Verif.C01_string_roundtrip",
    "Verif.C01_parseString_roundtrip",
    "Verif.C01_no_control"
   ],
   "note": "Round trip for every byte string and every continuation; also no raw control characters in the output."
  },
  {
   "property": "C02",
   "status": "partial",
   "theorems": [
    "Verif.C02_value_roundtrip_partial",
    "Verif.C02_key_counterexample",
    "Verif.C02_backslash_key_counterexample",
    "Verif.C02_double_counterexample"
   ],
   "note": "Proved for values with distinct plain member names, 64-bit integers and doubles that survive to_string/stod; the full statement is false (counterexamples for keys and doubles are proved)."
  },
  {
   "property": "C03",
   "status": "proved",
   "theorems": [
    "Verif.C03_terminates",
    "Verif.C03_fuel_irrelevant",
    "Verif.C03_forward"
   ],
   "note": "Termination (linear fuel always suffices), fuel irrelevance, remainder is a suffix. C++ stack depth is not modelled."
  },
  {
   "property": "C04",
   "status": "partial",
   "theorems": [
    "Verif.C04_request_roundtrip_partial",
    "Verif.C04_request_roundtrip_wire",
    "Verif.C04_quoted_id_counterexample",
    "Verif.C04_id_injection_counterexample",
    "Verif.C04_empty_method"
   ],
   "note": "Round trip for every request with plain (quote/backslash free where needed) id and non-empty method and any params value in the wire domain; counterexamples for quotes, id injection and empty method are proved."
  },
  {
   "property": "C05",
   "status": "partial",
   "theorems": [
    "Verif.C05_response_roundtrip_partial",
    "Verif.C05_success_iff_no_nested_error",
    "Verif.C05_nested_error_counterexample",
    "Verif.C05_nested_result_counterexample"
   ],
   "note": "Round trip when no nested key collides; the exact condition under which success stays success is an iff; counterexamples proved."
  },
  {
   "property": "C06",
   "status": "partial",
   "theorems": [
    "Verif.C06_notification_roundtrip_partial",
    "Verif.C06_notification_roundtrip_wire"
   ],
   "note": "Round trip for non-empty quote-free methods and wire-domain params."
  },
  {
   "property": "C07",
   "status": "partial",
   "theorems": [
    "Verif.C07_whitespace_counterexample",
    "Verif.C07_order_counterexample",
    "Verif.C07_layout_independent_partial"
   ],
   "note": "False of the code (whitespace and member order counterexamples proved); proved for the library's member order with arbitrary whitespace after colons."
  },
  {
   "property": "C08",
   "status": "proved",
   "theorems": [
    "Verif.C08_encode_decode",
    "Verif.C08_foreign_header"
   ],
   "note": "For every payload within the limit and total size within size_t; also for foreign headers (extra lines, any case, any white space)."
  },
  {
   "property": "C09",
   "status": "proved",
   "theorems": [
    "Verif.C09_chunk_independent",
    "Verif.C09_frames_delivered"
   ],
   "note": "Chunk independence for every byte stream and every handler behaviour; complete in-order delivery for framed payloads. Disconnects caused by other threads in the middle of a drain are not modelled."
  },
  {
   "property": "C10",
   "status": "partial",
   "theorems": [
    "Verif.C10_delivered_bounded",
    "Verif.C10_oversized_disconnects",
    "Verif.C10_huge_length_counterexample"
   ],
   "note": "Delivered messages are bounded for all inputs; a declared length above the limit and below 2^64 disconnects. A declared length of 2^64 or more is treated as a malformed header and its body is read as new frames: proved counterexample."
  },
  {
   "property": "C100",
   "status": "partial",
   "theorems": [
    "Verif.C100_inside_counterexample",
    "Verif.C100_stdio_mode_partial",
    "Verif.C100_lost_counterexample",
    "Verif.C100_default_counterexample"
   ],
   "note": "holds with MCP_STDIO_MODE on; false by default, where the first log text on standard output ends the conversation (counterexamples for every execution with the text between messages, and for text inside a message)"
  },
  {
   "property": "C101",
   "status": "partial",
   "theorems": [
    "Verif.C101_level_read",
    "Verif.C101_unknown_counterexample",
    "Verif.C101_written",
    "Verif.C101_file",
    "Verif.C101_no_file",
    "Verif.C101_text",
    "Verif.C101_fatal_lost_counterexample"
   ],
   "note": "what is written, where and in which order is proved for every history; false of names of levels the logger does not know and of the fatal entry"
  },
  {
   "property": "C102",
   "status": "proved",
   "theorems": [
    "Verif.C102_kind",
    "Verif.C102_cached",
    "Verif.C102_outcome",
    "Verif.C102_once",
    "Verif.C102_finishes"
   ],
   "note": "For a client with a transport whose mode is not changed meanwhile; that the transport ends the future is the environment's."
  },
  {
   "property": "C103",
   "status": "partial",
   "theorems": [
    "Verif.C103_arguments_partial",
    "Verif.C103_kept",
    "Verif.C103_task_result_counterexample",
    "Verif.C103_task_result_fast"
   ],
   "note": "All calls but GetTaskResult, which reads the task id again after the wait (counterexample)."
  },
  {
   "property": "C104",
   "status": "partial",
   "theorems": [
    "Verif.C104_destroyed_partial",
    "Verif.C104_list_counterexample",
    "Verif.C104_result_counterexample"
   ],
   "note": "CallTool, GetPrompt, ReadResource and the subscription calls; the others read the destroyed client (counterexamples)."
  },
  {
   "property": "C105",
   "status": "partial",
   "theorems": [
    "Verif.C105_answered_partial",
    "Verif.C105_beside_partial",
    "Verif.C105_prompt_handler_counterexample",
    "Verif.C105_updated_counterexample",
    "Verif.C105_slow_prompt_counterexample"
   ],
   "note": "proved for servers whose prompt handlers leave their server alone; a prompt handler runs under the registry mutex, so one that uses the registry blocks the server for good, and a slow one keeps every other request waiting"
  },
  {
   "property": "C106",
   "status": "partial",
   "theorems": [
    "Verif.C106_tool_partial",
    "Verif.C106_structured_counterexample",
    "Verif.C106_resource_partial",
    "Verif.C106_prompt_partial",
    "Verif.C106_required_counterexample",
    "Verif.C106_strict_counterexample",
    "Verif.C106_unknown_counterexample"
   ],
   "note": "reads of a resource that is found mirror fully; prompts on servers that are not strict; tools without structured content, metadata or required task support. Unknown names give null instead of an error, structured content and metadata are dropped, required task support and strict validation are ignored"
  },
  {
   "property": "C107",
   "status": "partial",
   "theorems": [
    "Verif.C107_tasks_partial",
    "Verif.C107_quiet_partial",
    "Verif.C107_call_counterexample",
    "Verif.C107_task_counterexample",
    "Verif.C107_taken_counterexample",
    "Verif.C107_unstopped_counterexample",
    "Verif.C107_reader_partial",
    "Verif.C107_serial"
   ],
   "note": "tasks begun before Stop, and stops without requests under way; calls under way are not waited for"
  },
  {
   "property": "C108",
   "status": "partial",
   "theorems": [
    "Verif.C108_ends_partial",
    "Verif.C108_ask_counterexample",
    "Verif.C108_race_counterexample",
    "Verif.C108_refused_partial"
   ],
   "note": "when no worker can begin to wait; in-memory requests after Close and requests between check and entry hang"
  },
  {
   "property": "C109",
   "status": "partial",
   "theorems": [
    "Verif.C109_stops",
    "Verif.C109_close_partial",
    "Verif.C109_delay_counterexample",
    "Verif.C109_again",
    "Verif.C109_delivered_partial",
    "Verif.C109_status_partial",
    "Verif.C109_status_counterexample",
    "Verif.C109_gone_counterexample",
    "Verif.C109_alive_partial",
    "Verif.C109_terminate_counterexample"
   ],
   "note": "C109_stops, C109_again proved; a delay sent by the server, misread status lines, 404 and an empty session id are counterexamples; C109_close, C109_status, C109_delivered, C109_alive partial."
  },
  {
   "property": "C11",
   "status": "proved",
   "theorems": [
    "Verif.C11_drain_complete",
    "Verif.C11_resync"
   ],
   "note": "Resynchronisation for header blocks of non-empty lines without CR/LF; the drain loop terminates in a state where nothing more can be decided."
  },
  {
   "property": "C110",
   "status": "partial",
   "theorems": [
    "Verif.C110_plain",
    "Verif.C110_carries",
    "Verif.C110_in_force",
    "Verif.C110_cleared",
    "Verif.C110_token",
    "Verif.C110_verified_partial",
    "Verif.C110_alive_partial",
    "Verif.C110_last",
    "Verif.C110_none",
    "Verif.C110_discovery_partial",
    "Verif.C110_session_partial",
    "Verif.C110_closed",
    "Verif.C110_every",
    "Verif.C110_fetch_counterexample",
    "Verif.C110_alive_counterexample",
    "Verif.C110_session_counterexample"
   ],
   "note": "C110_plain, C110_carries, C110_in_force, C110_cleared, C110_token, C110_last, C110_none, C110_every, C110_closed proved; C110_verified, C110_discovery, C110_session, C110_alive partial; a failed fetch, SetAuth during a fetch and a session id field in another case are counterexamples."
  },
  {
   "property": "C111",
   "status": "partial",
   "theorems": [
    "Verif.C111_prompt",
    "Verif.C111_shorthand",
    "Verif.C111_tool",
    "Verif.C111_read",
    "Verif.C111_sampling",
    "Verif.C111_sampling_shorthand",
    "Verif.C111_role_counterexample",
    "Verif.C111_bare_counterexample"
   ],
   "note": "C111_prompt, C111_shorthand, C111_tool, C111_read, C111_sampling, C111_sampling_shorthand proved; prompt messages with a role and a content, and a reader that expects them, are counterexamples."
  },
  {
   "property": "C112",
   "status": "partial",
   "theorems": [
    "Verif.C112_returns",
    "Verif.C112_lost_wakeup_counterexample",
    "Verif.C112_change_counterexample",
    "Verif.C112_callback_counterexample",
    "Verif.C112_rhythm",
    "Verif.C112_silent",
    "Verif.C112_one_more",
    "Verif.C112_lasts",
    "Verif.C112_goes_on_partial",
    "Verif.C112_apart",
    "Verif.C112_first",
    "Verif.C112_bound",
    "Verif.C112_asleep_partial"
   ],
   "note": "C112_apart, C112_first, C112_rhythm, C112_silent, C112_one_more, C112_bound, C112_returns, C112_lasts proved; C112_asleep partial; C112_goes_on (another keepalive is sent while connected) leaves out wake-ups without cause; an interval set anew, a wake-up that is lost and keepalive switched off in the error callback are counterexamples."
  },
  {
   "property": "C113",
   "status": "partial",
   "theorems": [
    "Verif.C113_result_shape",
    "Verif.C113_finishes",
    "Verif.C113_announced_partial",
    "Verif.C113_sampling_counterexample",
    "Verif.C113_outcome",
    "Verif.C113_once",
    "Verif.C113_wired",
    "Verif.C113_not_started_counterexample",
    "Verif.C113_arguments_partial",
    "Verif.C113_task_result_counterexample",
    "Verif.C113_destroyed_partial",
    "Verif.C113_destroyed_counterexample"
   ],
   "note": "False in part: sampling and task requests check no capability, task calls before Start dereference null, GetTaskResult reads its argument after the co_await, and a destroyed server is used by every call but sampling. The rest is proved."
  },
  {
   "property": "C114",
   "status": "partial",
   "theorems": [
    "Verif.Duplex.C114_cut_only",
    "Verif.Duplex.C114_handler",
    "Verif.Duplex.C114_told",
    "Verif.Duplex.C114_close",
    "Verif.Duplex.C114_oversize_counterexample",
    "Verif.Duplex.C114_in_order",
    "Verif.Duplex.C114_answer_partial",
    "Verif.Duplex.C114_once_partial",
    "Verif.Duplex.C114_settles_partial"
   ],
   "note": "Proved: messages taken are those queued, in order, once; requests put to a handler are those given, at most once; a future completed with a response has the answer of the handler of the other side to that request; without new calls and with handlers that send none, both sides come to rest in every fair order, and if connected every open call has its answer; the threads give up a connection only for a message beyond the content limit or the write queue. Counterexample: an answer beyond the content limit of the caller leaves the call open until Close. Missing: traffic the wire format does not carry (C04 to C06, C15), two calls with one id (C13), handlers that wait for requests of their own (C94)."
  },
  {
   "property": "C115",
   "status": "partial",
   "theorems": [
    "Verif.Whole.C115_gone",
    "Verif.Whole.C115_ended_by",
    "Verif.Whole.C115_calls_partial",
    "Verif.Whole.C115_result_partial",
    "Verif.Whole.C115_once_partial",
    "Verif.Whole.C115_tool_partial",
    "Verif.Whole.C115_prompt_partial",
    "Verif.Whole.C115_settles_partial"
   ],
   "note": "Proved for traffic the wire format carries (C04 to C06, C15) and calls with own ids (C13), which is what calls have whose client sends nothing else: results, tools, prompts, no dispatch for two calls, no request used twice, every use of a tool asked for by one call, and that calls that wait come to their end while both ends are connected. Missing: handlers that wait for requests of their own (C94), a client that is destroyed with calls under way (C102), a mode that changes under a call."
  },
  {
   "property": "C116",
   "status": "partial",
   "theorems": [
    "Verif.Web.C116_matched_partial",
    "Verif.Web.C116_tool_partial",
    "Verif.Web.C116_prompt_partial",
    "Verif.Web.C116_settles_partial"
   ],
   "note": "All executions; calls come to their end when every exchange ends (C116_settles_partial). Missing: traffic the wire format does not carry (C04 to C06, C15); more than 2^32 requests; calls that wait when the transport closes (C46)."
  },
  {
   "property": "C117",
   "status": "partial",
   "theorems": [
    "Verif.Http.C117_swept",
    "Verif.Http.C117_port_partial",
    "Verif.Http.C117_port_counterexample",
    "Verif.Http.C117_tells",
    "Verif.Http.C117_ready",
    "Verif.Http.C117_restart_counterexample",
    "Verif.Http.C117_twice_counterexample",
    "Verif.Http.C117_stopped",
    "Verif.Http.C117_handler_counterexample",
    "Verif.Http.C117_stop_returns_partial",
    "Verif.Http.C117_stop_hangs_counterexample",
    "Verif.Http.C117_destroy_partial",
    "Verif.Http.C117_destroy_hangs_counterexample"
   ],
   "note": "The future of Start becomes ready at most once and for a reason (C117_tells), and does on a server that was never stopped (C117_ready); after Stop no io thread and no stream thread is left (C117_stopped), and no session that was there before is served (C117_swept). Stop returns when every write to an event stream ends (C117_stop_returns_partial), gives back the port when the accept loop was past its beginning (C117_port_partial); the destructor after Stop returns when no request is being handled (C117_destroy_partial). False of the code beyond that: six counterexamples."
  },
  {
   "property": "C118",
   "status": "partial",
   "theorems": [
    "Verif.Stdio.C118_close_returns_partial",
    "Verif.Stdio.C118_second_close_counterexample",
    "Verif.Stdio.C118_closed_partial",
    "Verif.Stdio.C118_destroy_partial",
    "Verif.Stdio.C118_unclosed_counterexample",
    "Verif.Stdio.C118_given_up_counterexample",
    "Verif.Stdio.C118_self_counterexample",
    "Verif.Stdio.C118_twice_counterexample",
    "Verif.Stdio.C118_alive_partial",
    "Verif.Stdio.C118_one_reader_partial",
    "Verif.Stdio.C118_two_readers_counterexample",
    "Verif.Stdio.C118_ghost_counterexample",
    "Verif.Stdio.C118_stale_counterexample",
    "Verif.Stdio.C118_torn_counterexample"
   ],
   "note": "When Close has returned and no thread was let go, every thread has ended (C118_closed_partial), and the destructor takes three turns of its caller and nothing is used afterwards (C118_destroy_partial); the process goes on when only closed transports are started or destroyed (C118_alive_partial); the lives do not divide the input when no thread was let go (C118_one_reader_partial); Close returns under fair turns when the thread that watches is not about to sleep (C118_close_returns_partial). False of the code beyond that: nine counterexamples."
  },
  {
   "property": "C119",
   "status": "partial",
   "theorems": [
    "Verif.InMemory.C119_start_returns_partial",
    "Verif.InMemory.C119_destroy_returns_partial",
    "Verif.InMemory.C119_destroy_counterexample",
    "Verif.InMemory.C119_one_thread",
    "Verif.InMemory.C119_destroyed",
    "Verif.InMemory.C119_in_order",
    "Verif.InMemory.C119_destroyed_safe_partial",
    "Verif.InMemory.C119_handler_counterexample",
    "Verif.InMemory.C119_peer_counterexample",
    "Verif.InMemory.C119_after_close_counterexample",
    "Verif.InMemory.C119_stale_counterexample",
    "Verif.InMemory.C119_overlap_counterexample",
    "Verif.InMemory.C119_twice_counterexample",
    "Verif.InMemory.C119_restart_counterexample"
   ],
   "note": "Between calls no thread of an earlier Start is left (C119_one_thread); the messages are taken in order, each once, over all lives (C119_in_order); when the destructor has returned every thread that takes messages has ended (C119_destroyed) and nothing is used afterwards when no request is being handled and the other transport sends no more (C119_destroyed_safe_partial); Start returns when the thread of the life before has ended (C119_start_returns_partial); the destructor returns under fair turns when no thread is about to sleep (C119_destroy_returns_partial). False of the code beyond that: eight counterexamples."
  },
  {
   "property": "C12",
   "status": "proved",
   "theorems": [
    "Verif.C12_bounded",
    "Verif.C12_ordered_prefix",
    "Verif.C12_idle_complete",
    "Verif.C12_overflow_refused",
    "Verif.C12_silent_after_disconnect",
    "Verif.C12_end_to_end",
    "Verif.C12_writer_catches_up"
   ],
   "note": "All interleavings of senders, writer steps, partial writes, write failures, limit changes and disconnects; also catch-up of the writer and end-to-end delivery. One Start per transport."
  },
  {
   "property": "C120",
   "status": "partial",
   "theorems": [
    "Verif.Shm.C120_told_partial",
    "Verif.Shm.C120_each",
    "Verif.Shm.C120_meet_partial",
    "Verif.Shm.C120_two_creators_counterexample",
    "Verif.Shm.C120_two_openers_counterexample",
    "Verif.Shm.C120_orphan_counterexample",
    "Verif.Shm.C120_returns_partial",
    "Verif.Shm.C120_closed",
    "Verif.Shm.C120_destroyed",
    "Verif.Shm.C120_safe_partial",
    "Verif.Shm.C120_twice_counterexample",
    "Verif.Shm.C120_refused_counterexample",
    "Verif.Shm.C120_handler_counterexample",
    "Verif.Shm.C120_reconnect_counterexample"
   ],
   "note": "After Close the transport is not connected and nothing is pending, and unless it was called on its own thread no thread is left (C120_closed); after the destructor no thread that takes messages is left (C120_destroyed); nothing that is gone is used when Start is called only on a transport that was not started or was closed, and no request is being handled at its end (C120_safe_partial); Start, Close and the destructor return under fair turns (C120_returns_partial). On a channel: each transport lives a life of a single one (C120_each); with one creator an opener is joined to it (C120_meet_partial); with one opener it is told of the Close of the creator (C120_told_partial). False of the code beyond that: seven counterexamples."
  },
  {
   "property": "C121",
   "status": "partial",
   "theorems": [
    "Verif.C121_registries_partial",
    "Verif.C121_settings_partial",
    "Verif.C121_subscriptions_counterexample",
    "Verif.C121_client_capabilities_counterexample",
    "Verif.C121_keepalive_before_start_counterexample",
    "Verif.C121_keepalive_after_start_counterexample",
    "Verif.C121_late_handler_counterexample"
   ],
   "note": "Proved for the members that have a mutex, whatever is called when, and for the settings when they are made before Start. False of the code for the set of subscriptions, the capabilities of the client, and settings and keepalive that are changed while the server runs (counterexamples). The destructor is not modelled; values are left out."
  },
  {
   "property": "C122",
   "status": "partial",
   "theorems": [
    "Verif.C122_in_memory_queues_partial",
    "Verif.C122_in_memory_settings_partial",
    "Verif.C122_stdio_queues_partial",
    "Verif.C122_stdio_settings_partial",
    "Verif.C122_stdio_reader_partial",
    "Verif.C122_shared_memory_requests_partial",
    "Verif.C122_shared_memory_settings_partial",
    "Verif.C122_in_memory_late_handler_counterexample",
    "Verif.C122_stdio_close_in_handler_counterexample",
    "Verif.C122_stdio_framer_counterexample",
    "Verif.C122_shared_memory_restart_counterexample"
   ],
   "note": "Proved for the members that have a mutex, whatever is called when; for the settings when they are made before Start; for the time of the last input with one Start. False of the code for handlers and limits set later, for Close in a handler during Start and for a second Start (counterexamples). Destructors and the Windows branch are not modelled; the HTTP transport is not covered."
  },
  {
   "property": "C123",
   "status": "partial",
   "theorems": [
    "Verif.C123_caches_partial",
    "Verif.C123_settings_partial",
    "Verif.C123_server_capabilities_partial",
    "Verif.C123_capabilities_counterexample",
    "Verif.C123_late_handler_counterexample",
    "Verif.C123_ttl_counterexample",
    "Verif.C123_two_initializations_counterexample"
   ],
   "note": "False of the code as a whole: Initialize, late settings and the time to live race. Proved for the guarded members always, for the settings made before Connect, and for the server capabilities with one Initialize."
  },
  {
   "property": "C124",
   "status": "partial",
   "theorems": [
    "Verif.C124_transport_guarded_partial",
    "Verif.C124_transport_settings_partial",
    "Verif.C124_server_sessions_partial",
    "Verif.C124_server_settings_partial",
    "Verif.C124_transport_close_counterexample",
    "Verif.C124_server_active_session_counterexample",
    "Verif.C124_server_stop_counterexample"
   ],
   "note": "False of the code as a whole: sseThread, activeSessionId and acceptor race. Proved for the guarded members always and for the settings made before Start; what is written into a session before it is published is not modelled."
  },
  {
   "property": "C125",
   "status": "partial",
   "theorems": [
    "Verif.C125_exact_partial",
    "Verif.C125_stopped_partial",
    "Verif.C125_restart_partial",
    "Verif.C125_only_when_told",
    "Verif.C125_own_client_counterexample",
    "Verif.C125_no_transport_counterexample",
    "Verif.C125_late_notification_counterexample",
    "Verif.C125_second_start_counterexample"
   ],
   "note": "Exact description proved for every execution; false of the code: the library's own client never sends the notification, Stop without a transport, a late notification, a second Start."
  },
  {
   "property": "C126",
   "status": "partial",
   "theorems": [
    "Verif.C126_once_in_order_partial",
    "Verif.C126_complete_partial",
    "Verif.C126_silent_without_transport",
    "Verif.C126_caches_dropped",
    "Verif.C126_answer_first_counterexample",
    "Verif.C126_before_initialize_counterexample"
   ],
   "note": "Once each, in order and complete while connected, for every execution; false of the code: the answer is sent after the notifications, and requests before initialize are served."
  },
  {
   "property": "C127",
   "status": "partial",
   "theorems": [
    "Verif.Http.C127_sessions",
    "Verif.Http.C127_stopped",
    "Verif.Http.C127_abandoned_sessions_counterexample",
    "Verif.Http.C127_unread_counterexample",
    "Verif.Cancel.C127_tokens_partial",
    "Verif.Cancel.C127_sources",
    "Verif.Cancel.C127_settled_partial",
    "Verif.Cancel.C127_late_cancellations_counterexample",
    "Verif.Tasks.C127_tasks_counterexample"
   ],
   "note": "Proved for tokens (up to stray cancellations), stop sources and sessions; false of the code: late cancellations, ended tasks, abandoned sessions and unread queues are kept for ever."
  },
  {
   "property": "C128",
   "status": "partial",
   "theorems": [
    "Verif.C128_said_partial",
    "Verif.C128_current_partial",
    "Verif.C128_uncached_partial",
    "Verif.C128_connected",
    "Verif.C128_cached_counterexample",
    "Verif.C128_cut_off_counterexample",
    "Verif.C128_unconnected_counterexample"
   ],
   "note": "Proved without caching, and with caching once the cache was dropped after a Connect made when no list call was under way; false of the code otherwise: cached listings outlive the connection, a cut-off listing is cached as empty, a null pointer before Connect."
  },
  {
   "property": "C129",
   "status": "partial",
   "theorems": [
    "Verif.Near.C129_gone",
    "Verif.Near.C129_ended_by",
    "Verif.Near.C129_result_partial",
    "Verif.Near.C129_calls_partial",
    "Verif.Near.C129_tool_partial",
    "Verif.Near.C129_prompt_partial",
    "Verif.Near.C129_settles_partial"
   ],
   "note": "Traffic the wire format does not carry as it is (C04 to C06, C15) and more than 2^32 requests of one client are excluded; an exception that is no std::exception ends the process."
  },
  {
   "property": "C13",
   "status": "partial",
   "theorems": [
    "Verif.C13_at_most_once",
    "Verif.C13_answer_matches",
    "Verif.C13_close_completes_partial",
    "Verif.C13_close_race_counterexample",
    "Verif.C13_no_early_timeout",
    "Verif.C13_timeouts_fire",
    "Verif.C13_null_id_ignored",
    "Verif.C13_alias_counterexample",
    "Verif.C13_no_broken_partial",
    "Verif.C13_disconnect_hang_counterexample"
   ],
   "note": "At-most-once, id matching, no early timeouts, timeouts fire, Close completes are proved for all histories; the statement without its exceptions is false: proved counterexamples for shared id texts, for SendRequest racing Close, and for a lost connection without Close."
  },
  {
   "property": "C130",
   "status": "partial",
   "theorems": [
    "Verif.Ask.C130_gone",
    "Verif.Ask.C130_ended_by",
    "Verif.Ask.C130_sampling_partial",
    "Verif.Ask.C130_roots_partial",
    "Verif.Ask.C130_elicitation_partial",
    "Verif.Ask.C130_ping_partial",
    "Verif.Ask.C130_result_partial",
    "Verif.Ask.C130_handled_partial",
    "Verif.Ask.C130_settles_partial"
   ],
   "note": "Traffic the wire format does not carry as it is (C04 to C06, C15), ids of callers that are given twice or begin like those of the transport, and more than 2^32 requests of one server are excluded; an exception that is no std::exception ends the process."
  },
  {
   "property": "C131",
   "status": "partial",
   "theorems": [
    "Verif.Near.C131_memory_partial",
    "Verif.C131_origin",
    "Verif.C131_failure",
    "Verif.C131_once",
    "Verif.Web.C131_http_partial",
    "Verif.Whole.C131_stdio_partial"
   ],
   "note": "In a server it is proved of all executions of fewer than 2^64 steps. From end to end: traffic the wire format does not carry as it is (C04 to C06, C15) and more than 2^32 requests of one client are excluded; an exception that is no std::exception ends the process; over the shared-memory transport it is part of C133."
  },
  {
   "property": "C132",
   "status": "partial",
   "theorems": [
    "Verif.Ask.C132_sampling_partial",
    "Verif.Ask.C132_elicitation_partial",
    "Verif.C132_origin",
    "Verif.C132_failure",
    "Verif.C132_once"
   ],
   "note": "In a client it is proved of all executions of fewer than 2^64 steps. From end to end: traffic the wire format does not carry as it is (C04 to C06, C15) and more than 2^32 requests of one server are excluded; the options of a sampling request that never come to the handler (C74) are left out; over the shared-memory transport it is part of C134; the other transports are left out."
  },
  {
   "property": "C133",
   "status": "partial",
   "theorems": [
    "Verif.Share.C133_gone",
    "Verif.Share.C133_ended_by",
    "Verif.Share.C133_result_partial",
    "Verif.Share.C133_calls_partial",
    "Verif.Share.C133_tool_partial",
    "Verif.Share.C133_prompt_partial",
    "Verif.Share.C133_words_counterexample",
    "Verif.Share.C133_settles_partial",
    "Verif.Share.C133_task_partial"
   ],
   "note": "Traffic the wire format does not carry, requests and notifications of the server that are taken for answers (C47), executions longer than the 64-bit counter of the ids; that a call comes to its end needs room in the queue of the client for its answer (C90); false for calls that say result or error, with C133_words_counterexample."
  },
  {
   "property": "C134",
   "status": "partial",
   "theorems": [
    "Verif.Back.C134_gone",
    "Verif.Back.C134_ended_by",
    "Verif.Back.C134_sampling_partial",
    "Verif.Back.C134_roots_partial",
    "Verif.Back.C134_elicitation_partial",
    "Verif.Back.C134_ping_partial",
    "Verif.Back.C134_result_partial",
    "Verif.Back.C134_handled_partial",
    "Verif.Back.C134_words_counterexample",
    "Verif.Back.C134_settles_partial",
    "Verif.Back.C134_sampling_task_partial",
    "Verif.Back.C134_elicitation_task_partial"
   ],
   "note": "Traffic the wire format does not carry, requests and notifications of the client that are taken for answers (C47), ids of callers that are given twice or begin like those of the transport, and executions longer than the 64-bit counter of the ids are excluded; that a call comes to its end needs room in the queue of the server for its answer (C90); false for calls that say result or error, with C134_words_counterexample."
  },
  {
   "property": "C135",
   "status": "partial",
   "theorems": [
    "Verif.Pipe.C135_gone",
    "Verif.Pipe.C135_ended_by",
    "Verif.Pipe.C135_sampling_partial",
    "Verif.Pipe.C135_roots_partial",
    "Verif.Pipe.C135_elicitation_partial",
    "Verif.Pipe.C135_ping_partial",
    "Verif.Pipe.C135_result_partial",
    "Verif.Pipe.C135_handled_partial",
    "Verif.Pipe.C135_settles_partial",
    "Verif.Pipe.C135_sampling_task_partial",
    "Verif.Pipe.C135_elicitation_task_partial"
   ],
   "note": "Traffic the wire format does not carry (C04 to C06, C15), ids of callers that are given twice or begin like those of the transport (C13), handlers of the client that wait for requests of their own (C94), and a mode or a set of capabilities that changes under a call are excluded; a connection that is cut leaves the calls to the time limit and to Close (C03)."
  },
  {
   "property": "C136",
   "status": "partial",
   "theorems": [
    "Verif.Reach.C136_answered_partial",
    "Verif.Reach.C136_gone",
    "Verif.Reach.C136_ended_by",
    "Verif.Reach.C136_sampling_partial",
    "Verif.Reach.C136_roots_partial",
    "Verif.Reach.C136_elicitation_partial",
    "Verif.Reach.C136_ping_partial",
    "Verif.Reach.C136_heeded_partial",
    "Verif.Reach.C136_live_partial",
    "Verif.Reach.C136_lost_counterexample",
    "Verif.Reach.C136_result_partial",
    "Verif.Reach.C136_handled_partial",
    "Verif.Reach.C136_returned_partial",
    "Verif.Reach.C136_ended_partial",
    "Verif.Reach.C136_closed_partial",
    "Verif.Reach.C136_streamed_partial",
    "Verif.Reach.C136_sampling_task_partial",
    "Verif.Reach.C136_elicitation_task_partial"
   ],
   "note": "Traffic the wire format does not carry (C04 to C06, C15), ids of users of either transport that are given twice or have the form of those the transports make (C13), handlers of the client that wait for requests of their own, and a mode or a set of capabilities that changes under a call are excluded. That every call comes to its end is shown for every fair execution in which its session stays open on both sides, the client lives, listens and answers, no connection and no write fails and the client's posts are admitted, and not beyond: an answer whose connection fails is lost (C136_lost_counterexample), and the call then waits until its session ends; one that files its promise after the session was closed waits for ever (C44). What the answer is, in such an execution, is what C136_result_partial says of calls that ended."
  },
  {
   "property": "C14",
   "status": "proved",
   "theorems": [
    "Verif.C14_request_answered",
    "Verif.C14_response_silent",
    "Verif.C14_reply_iff_handled",
    "Verif.C14_end_to_end",
    "Verif.C14_no_handler_counterexample"
   ],
   "note": "Handlers are parameters returning a response, nothing or throwing; the no-handler fall-through is a proved counterexample for the unconditioned reading."
  },
  {
   "property": "C15",
   "status": "partial",
   "theorems": [
    "Verif.C15_request_classified",
    "Verif.C15_notification_classified",
    "Verif.C15_response_classified",
    "Verif.C15_backslash_id_counterexample"
   ],
   "note": "For ids without quotes/backslashes and responses carrying a result or an error; counterexample for an id ending in a backslash proved."
  },
  {
   "property": "C16",
   "status": "partial",
   "theorems": [
    "Verif.C16_own_answer_partial",
    "Verif.C16_ids_differ",
    "Verif.C16_none_broken",
    "Verif.C16_all_answered_partial",
    "Verif.C16_never_stuck_partial",
    "Verif.C16_in_order_exactly_once",
    "Verif.C16_completes_at_most_once",
    "Verif.C16_handled_once",
    "Verif.C16_answer_is_reply_partial",
    "Verif.C16_unreachable_peer_reported",
    "Verif.C16_request_answered",
    "Verif.C16_send_after_close_counterexample",
    "Verif.C16_peer_close_counterexample"
   ],
   "note": "In-order exactly-once processing, at-most-once completion, matching ids and at-most-one answer proved for every interleaving; under own ids each request gets the answer of the peer handler to that very request, and an open pair never forgets a request and can always finish all of them (plain traffic); completion itself fails after own or peer Close (two counterexamples over all continuations)."
  },
  {
   "property": "C17",
   "status": "proved",
   "theorems": [
    "Verif.C17_ids_unique",
    "Verif.C17_fresh",
    "Verif.C17_id_stable"
   ],
   "note": "Histories of fewer than 2^64-1 creations (the id counter is 64-bit)."
  },
  {
   "property": "C18",
   "status": "proved",
   "theorems": [
    "Verif.C18_finished_immutable",
    "Verif.C18_first_transition_wins",
    "Verif.C18_transition_effect",
    "Verif.C18_cancel_finished_refused"
   ],
   "note": "Store operations are atomic under the store mutex; same 2^64 bound on creations as C17."
  },
  {
   "property": "C19",
   "status": "proved",
   "theorems": [
    "Verif.C19_pages_show_every_task",
    "Verif.C19_terminates",
    "Verif.C19_page_contents"
   ],
   "note": "Through the client parameters and the server handler, with arbitrary store operations between pages; int page sizes, fewer than 2^63 tasks."
  },
  {
   "property": "C20",
   "status": "proved",
   "theorems": [
    "Verif.C20_task_roundtrip",
    "Verif.C20_results_roundtrip",
    "Verif.C20_task_text_roundtrip"
   ],
   "note": "Value level for every task; through the JSON text for ttl/pollInterval in 64-bit range."
  },
  {
   "property": "C21",
   "status": "partial",
   "theorems": [
    "Verif.C21_match_is_instantiation_partial",
    "Verif.C21_match_occurrences",
    "Verif.C21_repeated_name_counterexample"
   ],
   "note": "Distinct variable names; for repeated names false (counterexample) and characterised by C21_match_occurrences."
  },
  {
   "property": "C22",
   "status": "proved",
   "theorems": [
    "Verif.C22_match_complete",
    "Verif.C22_substitution_matches",
    "Verif.C22_shortest_match"
   ],
   "note": "For every template text and URI; also that the shortest-first match is reported."
  },
  {
   "property": "C23",
   "status": "proved",
   "theorems": [
    "Verif.C23_resolution",
    "Verif.C23_exhaustive"
   ],
   "note": "Handlers are opaque; the registry snapshot is taken under the registry mutex."
  },
  {
   "property": "C24",
   "status": "proved",
   "theorems": [
    "Verif.C24_ranged_read",
    "Verif.C24_full_read",
    "Verif.C24_bad_range_refused",
    "Verif.C24_non_text_refused",
    "Verif.C24_clamp_setting"
   ],
   "note": "Text and range within 64-bit sizes; the slice is specified by a split of the text; null shared_ptrs not modelled. Handlers are represented by their outcome."
  },
  {
   "property": "C25",
   "status": "partial",
   "theorems": [
    "Verif.C25_chunked_read",
    "Verif.C25_clamp_aware",
    "Verif.C25_cancelled_prefix",
    "Verif.C25_huge_chunk_counterexample"
   ],
   "note": "Chunk sizes below 2^63 (counterexample for larger ones: refused by the server); the text must not change between requests; JSON text layer not in the loop (values are passed as parsed, see C02)."
  },
  {
   "property": "C26",
   "status": "partial",
   "theorems": [
    "Verif.C26_only_named",
    "Verif.C26_stop_only_named",
    "Verif.C26_exact_partial",
    "Verif.C26_observed_partial",
    "Verif.C26_stop_agrees_partial",
    "Verif.C26_shared_id_counterexample",
    "Verif.C26_text_id_counterexample",
    "Verif.C26_late_cancel_hits_reuse"
   ],
   "note": "Missing: calls that run at the same time under one id text (the first to end unregisters the others), and cancellation that keeps string and integer ids of the same text apart; both are proved false of the code."
  },
  {
   "property": "C27",
   "status": "proved",
   "theorems": [
    "Verif.C27_tools",
    "Verif.C27_resources",
    "Verif.C27_templates",
    "Verif.C27_prompts",
    "Verif.C27_order_fixed",
    "Verif.C27_past_end",
    "Verif.C27_strict_refuses"
   ],
   "note": "For tools, resources, templates and prompts after any history of registrations and any limit below 2^63: following the cursors ends with the sorted entries, each once. In strict mode for entries the validator accepts; otherwise the handler is proved to answer with an error. Independence of hash-map order is proved."
  },
  {
   "property": "C28",
   "status": "proved",
   "theorems": [
    "Verif.C28_ui_hidden",
    "Verif.C28_ui_shown"
   ],
   "note": "Hidden on every page for every cursor and limit; with the extension a resource is shown exactly if its last operation was a registration. Reading a ui:// resource by uri is not restricted by the code and not part of the claim."
  },
  {
   "property": "C29",
   "status": "partial",
   "theorems": [
    "Verif.C29_subscribed_partial",
    "Verif.C29_unsubscribed_counterexample",
    "Verif.C29_never_missed",
    "Verif.C29_flag_race_counterexample"
   ],
   "note": "Exact for every history in which the client is subscribed to something; no update of a subscribed URI is ever missed, in every interleaving. False for a client subscribed to nothing (everything is announced) and for a race of unsubscribe with subscribe that switches the filter off; both counterexamples are proved."
  },
  {
   "property": "C30",
   "status": "partial",
   "theorems": [
    "Verif.C30_levels_partial",
    "Verif.C30_documented_levels_partial",
    "Verif.C30_dropped_counterexample",
    "Verif.C30_passed_counterexample"
   ],
   "note": "Exact for debug, info, warning and error in any letter case, after every history. Counterexamples: messages of the severities notice, critical, alert, emergency are treated as debug; minima notice, critical, alert, emergency let lower ones through."
  },
  {
   "property": "C31",
   "status": "proved",
   "theorems": [
    "Verif.C31_decisions",
    "Verif.C31_window_bound",
    "Verif.C31_in_force",
    "Verif.C31_twice",
    "Verif.C31_burst_counterexample"
   ],
   "note": "Decisions, bound per window, limit in force and twice the limit per second, for every interleaving of log calls and limit changes; a counterexample shows that N per arbitrary second does not hold. Clock assumed monotone where stated."
  },
  {
   "property": "C32",
   "status": "partial",
   "theorems": [
    "Verif.C32_closes_iff",
    "Verif.C32_only_sends",
    "Verif.C32_exact_partial",
    "Verif.C32_restart_counterexample"
   ],
   "note": "Closure iff the trailing failures reach the threshold, for every history; exact equality for the first closure. Counterexample: the count survives a closure, so after switching off and on a single failure closes."
  },
  {
   "property": "C33",
   "status": "proved",
   "theorems": [
    "Verif.C33_tools",
    "Verif.C33_tools_named",
    "Verif.C33_prompts",
    "Verif.C33_resources",
    "Verif.C33_templates",
    "Verif.C33_listed_once"
   ],
   "note": "Each registration call is one atomic step (the code holds registryMutex). RegisterTool(name, handler) is proved to keep earlier metadata."
  },
  {
   "property": "C34",
   "status": "partial",
   "theorems": [
    "Verif.C34_own_id",
    "Verif.C34_answered_partial",
    "Verif.C34_unknown_method",
    "Verif.C34_documented_found",
    "Verif.C34_initialize",
    "Verif.C34_ping",
    "Verif.C34_escape_counterexample",
    "Verif.C34_tool_escape_counterexample"
   ],
   "note": "Proved: whatever is answered carries the id of the request and either a result or an error; unknown methods; documented methods; initialize; ping. False for handlers that throw something else than std::exception (counterexamples); proved answered when handlers return or throw std::exception, except tasks/result of an unfinished task, which waits."
  },
  {
   "property": "C35",
   "status": "proved",
   "theorems": [
    "Verif.C35_step",
    "Verif.C35_history",
    "Verif.C35_mode"
   ],
   "note": ""
  },
  {
   "property": "C36",
   "status": "partial",
   "theorems": [
    "Verif.C36_category",
    "Verif.C36_parsed_category",
    "Verif.C36_roundtrip",
    "Verif.C36_response_roundtrip",
    "Verif.C36_recognised",
    "Verif.C36_code_mod",
    "Verif.C36_wide_code_counterexample",
    "Verif.C36_text_roundtrip"
   ],
   "note": "Codes of type int; wider codes are truncated (counterexample)."
  },
  {
   "property": "C37",
   "status": "proved",
   "theorems": [
    "Verif.C37_icon_roundtrip",
    "Verif.C37_icons_roundtrip",
    "Verif.C37_reads_exactly_valid_icons"
   ],
   "note": ""
  },
  {
   "property": "C38",
   "status": "proved",
   "theorems": [
    "Verif.C38_hit_iff",
    "Verif.C38_miss",
    "Verif.C38_own_reply"
   ],
   "note": "A ttl of 2^63 ms or more never hits; concurrent change of the ttl in the middle of a call is not modelled."
  },
  {
   "property": "C39",
   "status": "partial",
   "theorems": [
    "Verif.C39_stored_after",
    "Verif.C39_invalidated_partial",
    "Verif.C39_race_counterexample"
   ],
   "note": "False when a list call stands between its reply and the store when the notification is handled (race counterexample)."
  },
  {
   "property": "C40",
   "status": "partial",
   "theorems": [
    "Verif.C40_error_counterexample",
    "Verif.C40_success_partial",
    "Verif.C40_exception_not_cached"
   ],
   "note": "False for error, null and result-less replies, which are cached as an empty list; exceptions and strict failures are not cached."
  },
  {
   "property": "C41",
   "status": "proved",
   "theorems": [
    "Verif.C41_call_tool_result",
    "Verif.C41_read_resource_result",
    "Verif.C41_get_prompt_result",
    "Verif.C41_listings",
    "Verif.C41_tasks",
    "Verif.C41_others",
    "Verif.C41_elicitation",
    "Verif.C41_builders",
    "Verif.C41_built_result_accepted"
   ],
   "note": "Every JSON validator (tool call, resource read, prompt, completion, listings, tasks, roots, sampling, elicitation) accepts exactly the tabulated shape, for every JSON value; built content always passes. Null shared_ptrs inside values are not modelled."
  },
  {
   "property": "C42",
   "status": "partial",
   "theorems": [
    "Verif.C42_passes_iff",
    "Verif.C42_refusal_iff",
    "Verif.C42_guarded_partial",
    "Verif.C42_refused_reply",
    "Verif.C42_admitted",
    "Verif.C42_stream_counterexample"
   ],
   "note": "every request that runs a handler or changes a session carries an admitted token, refusals have the documented status; opening an event stream is not guarded (counterexample)"
  },
  {
   "property": "C43",
   "status": "partial",
   "theorems": [
    "Verif.C43_headers_partial",
    "Verif.C43_opaque_origin",
    "Verif.C43_malformed_counterexample",
    "Verif.C43_guarded_iff",
    "Verif.C43_server_partial"
   ],
   "note": "headers of the form of an authority or origin, for every verb and target; some malformed headers are let through (counterexample)"
  },
  {
   "property": "C44",
   "status": "partial",
   "theorems": [
    "Verif.C44_delivery",
    "Verif.C44_streams",
    "Verif.C44_lookup",
    "Verif.C44_answers",
    "Verif.C44_answer_own",
    "Verif.C44_remove",
    "Verif.C44_found_partial",
    "Verif.C44_collision_counterexample",
    "Verif.C44_race_counterexample"
   ],
   "note": "delivery in order and once, answers, removal, lookup; fails when an id is drawn twice and when a send races with the removal (counterexamples)"
  },
  {
   "property": "C45",
   "status": "partial",
   "theorems": [
    "Verif.C45_messages_partial",
    "Verif.C45_data_lines",
    "Verif.C45_crlf",
    "Verif.C45_retry_partial",
    "Verif.C45_retry_counterexample",
    "Verif.C45_split_counterexample"
   ],
   "note": "streams read in whole events, line ends of both kinds; counterexamples for reads that end inside a line and for retry values out of range"
  },
  {
   "property": "C46",
   "status": "partial",
   "theorems": [
    "Verif.C46_once",
    "Verif.C46_exchange",
    "Verif.C46_answered",
    "Verif.C46_waits",
    "Verif.C46_foreign_counterexample",
    "Verif.C46_request_counterexample",
    "Verif.C46_close_partial",
    "Verif.C46_race_counterexample"
   ],
   "note": "at most once in all histories; which exchanges complete their request is exact (iff), with counterexamples for foreign responses and requests as bodies; Close for requests filed before it, counterexample for the race"
  },
  {
   "property": "C47",
   "status": "partial",
   "theorems": [
    "Verif.C47_handed_iff",
    "Verif.C47_answered_once",
    "Verif.C47_answer_sent_partial",
    "Verif.C47_dropped_counterexample",
    "Verif.C47_set_level_counterexample",
    "Verif.C47_error_log_counterexample",
    "Verif.C47_notification_iff",
    "Verif.C47_own_request_counterexample",
    "Verif.C47_log_answers_counterexample"
   ],
   "note": "A request is handed to the handler exactly when it says neither word; handed requests are answered once under their id if the answer fits. Requests saying either word are never answered (counterexamples)."
  },
  {
   "property": "C48",
   "status": "partial",
   "theorems": [
    "Verif.C48_terminates",
    "Verif.C48_parses",
    "Verif.C48_other_scheme",
    "Verif.C48_server_partial",
    "Verif.C48_comma_counterexample"
   ],
   "note": "The parser terminates on every header and reads every well-formed Bearer challenge exactly; the server header is read back exactly when the metadata address has no comma, leading quote or outer blanks. False for an address with a comma, which the server writes unquoted (C48_comma_counterexample)."
  },
  {
   "property": "C49",
   "status": "proved",
   "theorems": [
    "Verif.C49_form",
    "Verif.C49_injective",
    "Verif.C49_ascii"
   ],
   "note": "Strings are lists of bytes; empty texts are not sent, which is part of the statement."
  },
  {
   "property": "C50",
   "status": "partial",
   "theorems": [
    "Verif.C50_after_partial",
    "Verif.C50_chain",
    "Verif.C50_once",
    "Verif.C50_received",
    "Verif.C50_reused",
    "Verif.C50_renewed",
    "Verif.C50_stale_counterexample",
    "Verif.C50_null_counterexample",
    "Verif.C50_escape_counterexample",
    "Verif.C50_zero_counterexample"
   ],
   "note": "The history of the token is proved for replies that are token responses or do not name access_token; after a failed fetch the old token stays although it may have expired, some refusals are read as tokens, escapes are kept and a lifetime of zero is replaced: counterexamples."
  },
  {
   "property": "C51",
   "status": "partial",
   "theorems": [
    "Verif.C51_origin_partial",
    "Verif.C51_case_counterexample"
   ],
   "note": "Proved for schemes in lower case, names and IPv6 addresses; a scheme with capital letters loses the port: counterexample."
  },
  {
   "property": "C52",
   "status": "partial",
   "theorems": [
    "Verif.C52_server_to_client",
    "Verif.C52_server_roundtrip",
    "Verif.C52_flags_counterexample",
    "Verif.C52_client_to_server",
    "Verif.C52_client_roundtrip",
    "Verif.C52_extensions_counterexample",
    "Verif.C52_extensions_parsed",
    "Verif.C52_reinitialize",
    "Verif.C52_wire",
    "Verif.C52_reinitialize_client",
    "Verif.C52_roots_parsed"
   ],
   "note": "False in two ways: the flags of tools, resources and prompts are read as set whenever the member is present, and a client never writes its extensions. Proved for the remaining fields in both directions."
  },
  {
   "property": "C53",
   "status": "proved",
   "theorems": [
    "Verif.C53_listAll_concatenates",
    "Verif.C53_listAllTools",
    "Verif.C53_listAllResources",
    "Verif.C53_listAllTemplates",
    "Verif.C53_listAllPrompts"
   ],
   "note": "For any paged call: listAll returns exactly the concatenation of the pages or the exception; for this library's server the sorted registry, with icons of documented themes (others are dropped, C62)."
  },
  {
   "property": "C54",
   "status": "partial",
   "theorems": [
    "Verif.C54_innermost",
    "Verif.C54_restored",
    "Verif.C54_own_request",
    "Verif.C54_other_thread_counterexample"
   ],
   "note": "Innermost context on every thread and restoration proved for all histories; handlers on other threads (task-mode tools, std::async handlers) are told nothing (C54_other_thread_counterexample)."
  },
  {
   "property": "C55",
   "status": "partial",
   "theorems": [
    "Verif.C55_reads_json_partial",
    "Verif.C55_surrogate_counterexample",
    "Verif.C55_bigint_counterexample",
    "Verif.C55_accepts_invalid"
   ],
   "note": "All RFC 8259 texts except surrogate-pair escapes, integers beyond 64 bits, repeated names; counterexamples proved."
  },
  {
   "property": "C56",
   "status": "partial",
   "theorems": [
    "Verif.C56_emptied_pipe_delivered_partial",
    "Verif.C56_open_pipe_is_emptied",
    "Verif.C56_hangup_loses_data_counterexample"
   ],
   "note": "Delivery proved when the pipe has been emptied; data loss on hang-up proved for every number of iterations."
  },
  {
   "property": "C57",
   "status": "partial",
   "theorems": [
    "Verif.C57_disable_counterexample",
    "Verif.C57_deadline_exact_partial"
   ],
   "note": "Exact deadline for timeouts up to 100 years; disabling (0) always overflows: proved."
  },
  {
   "property": "C58",
   "status": "partial",
   "theorems": [
    "Verif.C58_lost_wakeup_counterexample",
    "Verif.C58_stop_returns_partial"
   ],
   "note": "False: lost wakeup (flag cleared and notified without the mutex) proved to hang under every continuation; proved for all schedules without that window."
  },
  {
   "property": "C59",
   "status": "partial",
   "theorems": [
    "Verif.C59_timeouts_on_time_partial",
    "Verif.C59_lowered_timeout_counterexample"
   ],
   "note": "Proved while the timeout is never lowered; for every pair of lowered timeouts a late execution is proved."
  },
  {
   "property": "C60",
   "status": "partial",
   "theorems": [
    "Verif.C60_strict_never_truncates_partial",
    "Verif.C60_truncated_counterexample"
   ],
   "note": "Strict mode only; counterexample in the default mode."
  },
  {
   "property": "C61",
   "status": "partial",
   "theorems": [
    "Verif.C61_success_reported",
    "Verif.C61_failure_reported_partial",
    "Verif.C61_error_response_reported",
    "Verif.C61_lost_response_counterexample",
    "Verif.C61_error_like_result_counterexample"
   ],
   "note": "Successes are always reported, error responses always fail; lost responses are failures only in strict mode (counterexample), and a result with members code and message is misread (counterexample)."
  },
  {
   "property": "C62",
   "status": "proved",
   "theorems": [
    "Verif.C62_tool_roundtrip",
    "Verif.C62_resource_roundtrip",
    "Verif.C62_template_roundtrip",
    "Verif.C62_prompt_roundtrip",
    "Verif.C62_bad_icons_dropped"
   ],
   "note": ""
  },
  {
   "property": "C63",
   "status": "proved",
   "theorems": [
    "Verif.C63_changes_announced"
   ],
   "note": "Sequential registrations; the announcement follows the change within the call. Delivery by the transport is not part of the claim."
  },
  {
   "property": "C64",
   "status": "partial",
   "theorems": [
    "Verif.C64_truncated_counterexample",
    "Verif.C64_complete_partial"
   ],
   "note": "False: an error answer ends the loop and the pages so far are returned (counterexample with a strict server of this library). Proved for servers that answer every page without an error."
  },
  {
   "property": "C65",
   "status": "proved",
   "theorems": [
    "Verif.C65_task_delivers"
   ],
   "note": ""
  },
  {
   "property": "C66",
   "status": "partial",
   "theorems": [
    "Verif.C66_lost_task_counterexample",
    "Verif.C66_tasks_have_workers_partial"
   ],
   "note": "False for handlers that throw something else than std::exception (counterexample over all continuations). Proved otherwise."
  },
  {
   "property": "C67",
   "status": "proved",
   "theorems": [
    "Verif.C67_strict_results",
    "Verif.C67_strict_tools"
   ],
   "note": ""
  },
  {
   "property": "C68",
   "status": "proved",
   "theorems": [
    "Verif.C68_complete",
    "Verif.C68_call_tool",
    "Verif.C68_get_prompt",
    "Verif.C68_read_resource",
    "Verif.C68_read_template",
    "Verif.C68_sampling"
   ],
   "note": "All six calls, at the level of request and response values; the JSON text and the transports are C01 to C16."
  },
  {
   "property": "C69",
   "status": "partial",
   "theorems": [
    "Verif.C69_keeps_going_partial",
    "Verif.C69_no_resume_counterexample",
    "Verif.C69_stop_counterexample"
   ],
   "note": "Proved while nothing was closed and the server was not stopped; counterexamples after a closure (never resumes for any continuation without switching off) and after Stop."
  },
  {
   "property": "C70",
   "status": "partial",
   "theorems": [
    "Verif.C70_advertised_partial",
    "Verif.C70_chunking",
    "Verif.C70_replaced_counterexample"
   ],
   "note": "Proved for every history without SetCapabilities; counterexample with it."
  },
  {
   "property": "C71",
   "status": "partial",
   "theorems": [
    "Verif.C71_task_calls",
    "Verif.C71_complete_partial",
    "Verif.C71_complete_counterexample",
    "Verif.C71_task_result_counterexample",
    "Verif.C71_server_tasks",
    "Verif.C71_server_requests_counterexample",
    "Verif.C71_server_requests_partial"
   ],
   "note": "Proved for the task calls and Ping. Complete and GetTaskResult report failures as values (counterexamples); for Complete, non-empty values come from a success."
  },
  {
   "property": "C72",
   "status": "proved",
   "theorems": [
    "Verif.C72_get_task",
    "Verif.C72_call_tool_task",
    "Verif.C72_cancel_task",
    "Verif.C72_list_tasks"
   ],
   "note": ""
  },
  {
   "property": "C73",
   "status": "partial",
   "theorems": [
    "Verif.C73_own_id",
    "Verif.C73_answered_partial",
    "Verif.C73_unknown_method",
    "Verif.C73_tasks_not_announced",
    "Verif.C73_tasks_announced",
    "Verif.C73_escape_counterexample"
   ],
   "note": "Proved for handlers that return or throw standard exceptions; other exceptions escape and leave the request unanswered (C73_escape_counterexample)."
  },
  {
   "property": "C74",
   "status": "partial",
   "theorems": [
    "Verif.C74_roots",
    "Verif.C74_elicitation",
    "Verif.C74_sampling",
    "Verif.C74_sampling_cancelled",
    "Verif.C74_sampling_sent",
    "Verif.C74_sampling_options_counterexample"
   ],
   "note": "Proved for roots, elicitation and the sampling options that have a parameter in the handler; the other sampling options never reach it (C74_sampling_options_counterexample)."
  },
  {
   "property": "C75",
   "status": "proved",
   "theorems": [
    "Verif.C75_strict_results",
    "Verif.C75_strict_handlers",
    "Verif.C75_bad_params",
    "Verif.C75_lenient"
   ],
   "note": "All results and parameters of a strict client."
  },
  {
   "property": "C76",
   "status": "partial",
   "theorems": [
    "Verif.C76_sampling_started",
    "Verif.C76_elicitation_started",
    "Verif.C76_not_announced",
    "Verif.C76_elicitation_delivers",
    "Verif.C76_sampling_delivers",
    "Verif.C76_lost_task_counterexample",
    "Verif.C76_tasks_have_workers_partial"
   ],
   "note": "Start and delivery proved for all histories; tasks whose handler throws a non-standard exception never end (C76_lost_task_counterexample)."
  },
  {
   "property": "C77",
   "status": "partial",
   "theorems": [
    "Verif.C77_progress",
    "Verif.C77_strict_progress",
    "Verif.C77_integer_progress_counterexample",
    "Verif.C77_integer_token_counterexample",
    "Verif.C77_task_status",
    "Verif.C77_handlers",
    "Verif.C77_cancelled"
   ],
   "note": "Proved for everything the library's own server sends; integer progress and tokens of foreign servers are misread (C77_integer_progress_counterexample, C77_integer_token_counterexample)."
  },
  {
   "property": "C78",
   "status": "partial",
   "theorems": [
    "Verif.C78_strict_answers_partial",
    "Verif.C78_sampling_counterexample"
   ],
   "note": "Proved for roots, elicitation and task requests; sampling results are not checked (C78_sampling_counterexample)."
  },
  {
   "property": "C79",
   "status": "proved",
   "theorems": [
    "Verif.C79_tools",
    "Verif.C79_resources",
    "Verif.C79_templates",
    "Verif.C79_prompts"
   ],
   "note": "For items whose icons use documented themes and, in strict mode, entries the validator accepts."
  },
  {
   "property": "C80",
   "status": "partial",
   "theorems": [
    "Verif.C80_stays_on_partial",
    "Verif.C80_scopes_dropped_counterexample"
   ],
   "note": "stays on with the verifier; the required scopes are overwritten by SetProtectedResourceMetadata (counterexample)"
  },
  {
   "property": "C81",
   "status": "partial",
   "theorems": [
    "Verif.C81_newest_partial",
    "Verif.C81_other_session_counterexample",
    "Verif.C81_refused_counterexample"
   ],
   "note": "false; what is true is that messages go to the session created last unless it was removed"
  },
  {
   "property": "C82",
   "status": "proved",
   "theorems": [
    "Verif.C82_versions",
    "Verif.C82_needs_session",
    "Verif.C82_opens",
    "Verif.C82_within",
    "Verif.C82_ends"
   ],
   "note": "against the model of the server, with the session id drawn as a parameter"
  },
  {
   "property": "C83",
   "status": "partial",
   "theorems": [
    "Verif.C83_answered_partial",
    "Verif.C83_own_id",
    "Verif.C83_rpc_answered",
    "Verif.C83_notify_counterexample"
   ],
   "note": "all paths but the notification path (counterexample)"
  },
  {
   "property": "C84",
   "status": "partial",
   "theorems": [
    "Verif.C84_restart_counterexample",
    "Verif.C84_hang_counterexample",
    "Verif.C84_sends_partial"
   ],
   "note": "transports not started again after Close; counterexamples for restarted ones"
  },
  {
   "property": "C85",
   "status": "partial",
   "theorems": [
    "Verif.C85_metadata_partial",
    "Verif.C85_quote_counterexample"
   ],
   "note": "names without quotes, backslashes or control characters; counterexample with a quote"
  },
  {
   "property": "C86",
   "status": "partial",
   "theorems": [
    "Verif.C86_issuer",
    "Verif.C86_resource_partial",
    "Verif.C86_path_counterexample"
   ],
   "note": "Proved for issuers and for server URLs with at most one path segment; false for longer paths: counterexample."
  },
  {
   "property": "C87",
   "status": "partial",
   "theorems": [
    "Verif.C87_issuer_partial",
    "Verif.C87_resource_partial",
    "Verif.C87_nested_counterexample",
    "Verif.C87_escape_counterexample"
   ],
   "note": "Proved for documents whose member names do not occur quoted earlier and for the escapes the code knows; counterexamples for nested names and code point escapes."
  },
  {
   "property": "C88",
   "status": "partial",
   "theorems": [
    "Verif.C88_connection_partial",
    "Verif.C88_clear_counterexample",
    "Verif.C88_bare",
    "Verif.C88_v6_counterexample"
   ],
   "note": "Proved for schemes in lower case or none and hosts without colons; counterexamples for capital letters and IPv6. TLS itself is not modelled."
  },
  {
   "property": "C89",
   "status": "partial",
   "theorems": [
    "Verif.C89_sound",
    "Verif.C89_first",
    "Verif.C89_finds_partial"
   ],
   "note": "Soundness and first document in full; the composition with the server is proved for names that need no escaping in JSON."
  },
  {
   "property": "C90",
   "status": "partial",
   "theorems": [
    "Verif.C90_made_ids_differ",
    "Verif.C90_gone_after_close",
    "Verif.C90_opener_replaced",
    "Verif.C90_in_order_exactly_once",
    "Verif.C90_completes_at_most_once",
    "Verif.C90_answer_is_reply_partial",
    "Verif.C90_queue_bounds",
    "Verif.C90_unsent_reported",
    "Verif.C90_told",
    "Verif.C90_after_close_partial",
    "Verif.C90_race_counterexample",
    "Verif.C90_large_answer_counterexample",
    "Verif.C90_full_queue_counterexample",
    "Verif.C90_creator_not_told_counterexample",
    "Verif.C90_opener_leaves",
    "Verif.C90_small_buffer_counterexample"
   ],
   "note": "Order, at most once, id match, bounds, answers of the own request under distinct ids, close; counterexamples for lost answers, the close race and the opener that leaves."
  },
  {
   "property": "C91",
   "status": "proved",
   "theorems": [
    "Verif.C91_sent",
    "Verif.C91_refused",
    "Verif.C91_filed",
    "Verif.C91_session",
    "Verif.C91_server_request",
    "Verif.C91_server_notification",
    "Verif.C91_after_close",
    "Verif.C91_ids_differ"
   ],
   "note": ""
  },
  {
   "property": "C92",
   "status": "partial",
   "theorems": [
    "Verif.C92_answers_partial",
    "Verif.C92_once_partial",
    "Verif.C92_delivered_partial",
    "Verif.C92_opens_partial",
    "Verif.C92_lost_counterexample",
    "Verif.C92_version_counterexample"
   ],
   "note": "Requests, answers, messages and refusals that survive the wire format, own ids pairwise different; counterexamples for a session the server lost and for a session of another version."
  },
  {
   "property": "C93",
   "status": "partial",
   "theorems": [
    "Verif.C93_answers_partial",
    "Verif.C93_once_partial",
    "Verif.C93_asked_partial",
    "Verif.C93_delivered_partial",
    "Verif.C93_unsent_counterexample"
   ],
   "note": "Requests, answers, messages and refusals that survive the wire format, ids given on each side pairwise different; counterexample: an answer whose connection fails is never sent again and the server has no timeout."
  },
  {
   "property": "C94",
   "status": "partial",
   "theorems": [
    "Verif.C94_never_answered_counterexample",
    "Verif.C94_answers_counterexample",
    "Verif.C94_blocked_counterexample",
    "Verif.C94_timeout_frees_partial"
   ],
   "note": "False of the code: on stdio no handler is ever told a response, in every execution (counterexample theorems). Proved: its requests fail by their time limits, so that it comes to its end and is answered."
  },
  {
   "property": "C95",
   "status": "partial",
   "theorems": [
    "Verif.C95_seen_partial",
    "Verif.C95_unseen_counterexample"
   ],
   "note": "False of the code: on stdio a cancellation written after the request is never seen by its handler, in every execution. Proved: what is seen was written before the request and names its id."
  },
  {
   "property": "C96",
   "status": "proved",
   "theorems": [
    "Verif.C96_in_order",
    "Verif.C96_never_stuck",
    "Verif.C96_own_answer"
   ],
   "note": "A request handler is installed and the write queue takes every frame (its limit is C12); one Start; time limits are not switched off."
  },
  {
   "property": "C97",
   "status": "partial",
   "theorems": [
    "Verif.C97_stdio_settings_partial",
    "Verif.C97_no_timeout_counterexample",
    "Verif.C97_env_zero_counterexample",
    "Verif.C97_lines_counterexample",
    "Verif.C97_not_a_number_counterexample",
    "Verif.C97_http_settings_partial",
    "Verif.C97_semicolon_counterexample",
    "Verif.C97_scheme_case_counterexample",
    "Verif.C97_http_number_cut_counterexample"
   ],
   "note": "Full for the texts described (numbers in decimal digits within range); what signs, units, semicolons, line ends, zero, numbers from 2^32 on and capital schemes do instead is proved as counterexamples. The texts of the environment and of demo programs are not modelled."
  },
  {
   "property": "C98",
   "status": "partial",
   "theorems": [
    "Verif.C98_shm_pair_partial",
    "Verif.C98_shm_name_counterexample",
    "Verif.C98_shm_values_counterexample",
    "Verif.C98_server_text_partial",
    "Verif.C98_tls_only_small_letters",
    "Verif.C98_open_bracket_counterexample",
    "Verif.C98_bare_v6_counterexample"
   ],
   "note": "Full for texts of the documented forms; malformed texts are counterexamples. Resolving host names and creating queues are outside the model."
  },
  {
   "property": "C99",
   "status": "proved",
   "theorems": [
    "Verif.C99_port_accepted"
   ],
   "note": "Both directions for every text; resolving the address and binding come after the check and are outside the model."
  }
 ]
}
