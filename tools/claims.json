{
 "C01": [
  "proved",
  "Round trip for every byte string and every continuation; also no raw control characters in the output."
 ],
 "C02": [
  "partial",
  "Proved for values with distinct plain member names, 64-bit integers and doubles that survive to_string/stod; the full statement is false (counterexamples for keys and doubles are proved)."
 ],
 "C03": [
  "proved",
  "Termination (linear fuel always suffices), fuel irrelevance, remainder is a suffix. C++ stack depth is not modelled."
 ],
 "C04": [
  "partial",
  "Round trip for every request with plain (quote/backslash free where needed) id and non-empty method and any params value in the wire domain; counterexamples for quotes, id injection and empty method are proved."
 ],
 "C05": [
  "partial",
  "Round trip when no nested key collides; the exact condition under which success stays success is an iff; counterexamples proved."
 ],
 "C06": [
  "partial",
  "Round trip for non-empty quote-free methods and wire-domain params."
 ],
 "C07": [
  "partial",
  "False of the code (whitespace and member order counterexamples proved); proved for the library's member order with arbitrary whitespace after colons."
 ],
 "C08": [
  "proved",
  "For every payload within the limit and total size within size_t; also for foreign headers (extra lines, any case, any white space)."
 ],
 "C09": [
  "proved",
  "Chunk independence for every byte stream and every handler behaviour; complete in-order delivery for framed payloads. Disconnects caused by other threads in the middle of a drain are not modelled."
 ],
 "C10": [
  "partial",
  "Delivered messages are bounded for all inputs; a declared length above the limit and below 2^64 disconnects. A declared length of 2^64 or more is treated as a malformed header and its body is read as new frames: proved counterexample."
 ],
 "C100": [
  "partial",
  "holds with MCP_STDIO_MODE on; false by default, where the first log text on standard output ends the conversation (counterexamples for every execution with the text between messages, and for text inside a message)"
 ],
 "C101": [
  "partial",
  "what is written, where and in which order is proved for every history; false of names of levels the logger does not know and of the fatal entry"
 ],
 "C102": [
  "proved",
  "For a client with a transport whose mode is not changed meanwhile; that the transport ends the future is the environment's."
 ],
 "C103": [
  "partial",
  "All calls but GetTaskResult, which reads the task id again after the wait (counterexample)."
 ],
 "C104": [
  "partial",
  "CallTool, GetPrompt, ReadResource and the subscription calls; the others read the destroyed client (counterexamples)."
 ],
 "C105": [
  "partial",
  "proved for servers whose prompt handlers leave their server alone; a prompt handler runs under the registry mutex, so one that uses the registry blocks the server for good, and a slow one keeps every other request waiting"
 ],
 "C106": [
  "partial",
  "reads of a resource that is found mirror fully; prompts on servers that are not strict; tools without structured content, metadata or required task support. Unknown names give null instead of an error, structured content and metadata are dropped, required task support and strict validation are ignored"
 ],
 "C107": [
  "partial",
  "tasks begun before Stop, and stops without requests under way; calls under way are not waited for"
 ],
 "C108": [
  "partial",
  "when no worker can begin to wait; in-memory requests after Close and requests between check and entry hang"
 ],
 "C109": [
  "partial",
  "C109_stops, C109_again proved; a delay sent by the server, misread status lines, 404 and an empty session id are counterexamples; C109_close, C109_status, C109_delivered, C109_alive partial."
 ],
 "C11": [
  "proved",
  "Resynchronisation for header blocks of non-empty lines without CR/LF; the drain loop terminates in a state where nothing more can be decided."
 ],
 "C110": [
  "partial",
  "C110_plain, C110_carries, C110_in_force, C110_cleared, C110_token, C110_last, C110_none, C110_every, C110_closed proved; C110_verified, C110_discovery, C110_session, C110_alive partial; a failed fetch, SetAuth during a fetch and a session id field in another case are counterexamples."
 ],
 "C111": [
  "partial",
  "C111_prompt, C111_shorthand, C111_tool, C111_read, C111_sampling, C111_sampling_shorthand proved; prompt messages with a role and a content, and a reader that expects them, are counterexamples."
 ],
 "C112": [
  "partial",
  "C112_apart, C112_first, C112_rhythm, C112_silent, C112_one_more, C112_bound, C112_returns, C112_lasts proved; C112_asleep partial; C112_goes_on (another keepalive is sent while connected) leaves out wake-ups without cause; an interval set anew, a wake-up that is lost and keepalive switched off in the error callback are counterexamples."
 ],
 "C113": [
  "partial",
  "False in part: sampling and task requests check no capability, task calls before Start dereference null, GetTaskResult reads its argument after the co_await, and a destroyed server is used by every call but sampling. The rest is proved."
 ],
 "C114": [
  "partial",
  "Proved: messages taken are those queued, in order, once; requests put to a handler are those given, at most once; a future completed with a response has the answer of the handler of the other side to that request; without new calls and with handlers that send none, both sides come to rest in every fair order, and if connected every open call has its answer; the threads give up a connection only for a message beyond the content limit or the write queue. Counterexample: an answer beyond the content limit of the caller leaves the call open until Close. Missing: traffic the wire format does not carry (C04 to C06, C15), two calls with one id (C13), handlers that wait for requests of their own (C94)."
 ],
 "C115": [
  "partial",
  "Proved for traffic the wire format carries (C04 to C06, C15) and calls with own ids (C13), which is what calls have whose client sends nothing else: results, tools, prompts, no dispatch for two calls, no request used twice, every use of a tool asked for by one call, and that calls that wait come to their end while both ends are connected. Missing: handlers that wait for requests of their own (C94), a client that is destroyed with calls under way (C102), a mode that changes under a call."
 ],
 "C116": [
  "partial",
  "All executions; calls come to their end when every exchange ends (C116_settles_partial). Missing: traffic the wire format does not carry (C04 to C06, C15); more than 2^32 requests; calls that wait when the transport closes (C46)."
 ],
 "C117": [
  "partial",
  "The future of Start becomes ready at most once and for a reason (C117_tells), and does on a server that was never stopped (C117_ready); after Stop no io thread and no stream thread is left (C117_stopped), and no session that was there before is served (C117_swept). Stop returns when every write to an event stream ends (C117_stop_returns_partial), gives back the port when the accept loop was past its beginning (C117_port_partial); the destructor after Stop returns when no request is being handled (C117_destroy_partial). False of the code beyond that: six counterexamples."
 ],
 "C118": [
  "partial",
  "When Close has returned and no thread was let go, every thread has ended (C118_closed_partial), and the destructor takes three turns of its caller and nothing is used afterwards (C118_destroy_partial); the process goes on when only closed transports are started or destroyed (C118_alive_partial); the lives do not divide the input when no thread was let go (C118_one_reader_partial); Close returns under fair turns when the thread that watches is not about to sleep (C118_close_returns_partial). False of the code beyond that: nine counterexamples."
 ],
 "C119": [
  "partial",
  "Between calls no thread of an earlier Start is left (C119_one_thread); the messages are taken in order, each once, over all lives (C119_in_order); when the destructor has returned every thread that takes messages has ended (C119_destroyed) and nothing is used afterwards when no request is being handled and the other transport sends no more (C119_destroyed_safe_partial); Start returns when the thread of the life before has ended (C119_start_returns_partial); the destructor returns under fair turns when no thread is about to sleep (C119_destroy_returns_partial). False of the code beyond that: eight counterexamples."
 ],
 "C12": [
  "proved",
  "All interleavings of senders, writer steps, partial writes, write failures, limit changes and disconnects; also catch-up of the writer and end-to-end delivery. One Start per transport."
 ],
 "C120": [
  "partial",
  "After Close the transport is not connected and nothing is pending, and unless it was called on its own thread no thread is left (C120_closed); after the destructor no thread that takes messages is left (C120_destroyed); nothing that is gone is used when Start is called only on a transport that was not started or was closed, and no request is being handled at its end (C120_safe_partial); Start, Close and the destructor return under fair turns (C120_returns_partial). On a channel: each transport lives a life of a single one (C120_each); with one creator an opener is joined to it (C120_meet_partial); with one opener it is told of the Close of the creator (C120_told_partial). False of the code beyond that: seven counterexamples."
 ],
 "C121": [
  "partial",
  "Proved for the members that have a mutex, whatever is called when, and for the settings when they are made before Start. False of the code for the set of subscriptions, the capabilities of the client, and settings and keepalive that are changed while the server runs (counterexamples). The destructor is not modelled; values are left out."
 ],
 "C122": [
  "partial",
  "Proved for the members that have a mutex, whatever is called when; for the settings when they are made before Start; for the time of the last input with one Start. False of the code for handlers and limits set later, for Close in a handler during Start and for a second Start (counterexamples). Destructors and the Windows branch are not modelled; the HTTP transport is not covered."
 ],
 "C123": [
  "partial",
  "False of the code as a whole: Initialize, late settings and the time to live race. Proved for the guarded members always, for the settings made before Connect, and for the server capabilities with one Initialize."
 ],
 "C124": [
  "partial",
  "False of the code as a whole: sseThread, activeSessionId and acceptor race. Proved for the guarded members always and for the settings made before Start; what is written into a session before it is published is not modelled."
 ],
 "C125": [
  "partial",
  "Exact description proved for every execution; false of the code: the library's own client never sends the notification, Stop without a transport, a late notification, a second Start."
 ],
 "C126": [
  "partial",
  "Once each, in order and complete while connected, for every execution; false of the code: the answer is sent after the notifications, and requests before initialize are served."
 ],
 "C127": [
  "partial",
  "Proved for tokens (up to stray cancellations), stop sources and sessions; false of the code: late cancellations, ended tasks, abandoned sessions and unread queues are kept for ever."
 ],
 "C128": [
  "partial",
  "Proved without caching, and with caching once the cache was dropped after a Connect made when no list call was under way; false of the code otherwise: cached listings outlive the connection, a cut-off listing is cached as empty, a null pointer before Connect."
 ],
 "C129": [
  "partial",
  "Traffic the wire format does not carry as it is (C04 to C06, C15) and more than 2^32 requests of one client are excluded; an exception that is no std::exception ends the process."
 ],
 "C13": [
  "partial",
  "At-most-once, id matching, no early timeouts, timeouts fire, Close completes are proved for all histories; the statement without its exceptions is false: proved counterexamples for shared id texts, for SendRequest racing Close, and for a lost connection without Close."
 ],
 "C130": [
  "partial",
  "Traffic the wire format does not carry as it is (C04 to C06, C15), ids of callers that are given twice or begin like those of the transport, and more than 2^32 requests of one server are excluded; an exception that is no std::exception ends the process."
 ],
 "C131": [
  "partial",
  "In a server it is proved of all executions of fewer than 2^64 steps. From end to end: traffic the wire format does not carry as it is (C04 to C06, C15) and more than 2^32 requests of one client are excluded; an exception that is no std::exception ends the process; over the shared-memory transport it is part of C133."
 ],
 "C132": [
  "partial",
  "In a client it is proved of all executions of fewer than 2^64 steps. From end to end: traffic the wire format does not carry as it is (C04 to C06, C15) and more than 2^32 requests of one server are excluded; the options of a sampling request that never come to the handler (C74) are left out; over the shared-memory transport it is part of C134; the other transports are left out."
 ],
 "C133": [
  "partial",
  "Traffic the wire format does not carry, requests and notifications of the server that are taken for answers (C47), executions longer than the 64-bit counter of the ids; that a call comes to its end needs room in the queue of the client for its answer (C90); false for calls that say result or error, with C133_words_counterexample."
 ],
 "C134": [
  "partial",
  "Traffic the wire format does not carry, requests and notifications of the client that are taken for answers (C47), ids of callers that are given twice or begin like those of the transport, and executions longer than the 64-bit counter of the ids are excluded; that a call comes to its end needs room in the queue of the server for its answer (C90); false for calls that say result or error, with C134_words_counterexample."
 ],
 "C135": [
  "partial",
  "Traffic the wire format does not carry (C04 to C06, C15), ids of callers that are given twice or begin like those of the transport (C13), handlers of the client that wait for requests of their own (C94), and a mode or a set of capabilities that changes under a call are excluded; a connection that is cut leaves the calls to the time limit and to Close (C03)."
 ],
 "C136": [
  "partial",
  "Traffic the wire format does not carry (C04 to C06, C15), ids of users of either transport that are given twice or have the form of those the transports make (C13), handlers of the client that wait for requests of their own, and a mode or a set of capabilities that changes under a call are excluded. That every call comes to its end is shown for every fair execution in which its session stays open on both sides, the client lives, listens and answers, no connection and no write fails and the client's posts are admitted, and not beyond: an answer whose connection fails is lost (C136_lost_counterexample), and the call then waits until its session ends; one that files its promise after the session was closed waits for ever (C44). What the answer is, in such an execution, is what C136_result_partial says of calls that ended."
 ],
 "C14": [
  "proved",
  "Handlers are parameters returning a response, nothing or throwing; the no-handler fall-through is a proved counterexample for the unconditioned reading."
 ],
 "C15": [
  "partial",
  "For ids without quotes/backslashes and responses carrying a result or an error; counterexample for an id ending in a backslash proved."
 ],
 "C16": [
  "partial",
  "In-order exactly-once processing, at-most-once completion, matching ids and at-most-one answer proved for every interleaving; under own ids each request gets the answer of the peer handler to that very request, and an open pair never forgets a request and can always finish all of them (plain traffic); completion itself fails after own or peer Close (two counterexamples over all continuations)."
 ],
 "C17": [
  "proved",
  "Histories of fewer than 2^64-1 creations (the id counter is 64-bit)."
 ],
 "C18": [
  "proved",
  "Store operations are atomic under the store mutex; same 2^64 bound on creations as C17."
 ],
 "C19": [
  "proved",
  "Through the client parameters and the server handler, with arbitrary store operations between pages; int page sizes, fewer than 2^63 tasks."
 ],
 "C20": [
  "proved",
  "Value level for every task; through the JSON text for ttl/pollInterval in 64-bit range."
 ],
 "C21": [
  "partial",
  "Distinct variable names; for repeated names false (counterexample) and characterised by C21_match_occurrences."
 ],
 "C22": [
  "proved",
  "For every template text and URI; also that the shortest-first match is reported."
 ],
 "C23": [
  "proved",
  "Handlers are opaque; the registry snapshot is taken under the registry mutex."
 ],
 "C24": [
  "proved",
  "Text and range within 64-bit sizes; the slice is specified by a split of the text; null shared_ptrs not modelled. Handlers are represented by their outcome."
 ],
 "C25": [
  "partial",
  "Chunk sizes below 2^63 (counterexample for larger ones: refused by the server); the text must not change between requests; JSON text layer not in the loop (values are passed as parsed, see C02)."
 ],
 "C26": [
  "partial",
  "Missing: calls that run at the same time under one id text (the first to end unregisters the others), and cancellation that keeps string and integer ids of the same text apart; both are proved false of the code."
 ],
 "C27": [
  "proved",
  "For tools, resources, templates and prompts after any history of registrations and any limit below 2^63: following the cursors ends with the sorted entries, each once. In strict mode for entries the validator accepts; otherwise the handler is proved to answer with an error. Independence of hash-map order is proved."
 ],
 "C28": [
  "proved",
  "Hidden on every page for every cursor and limit; with the extension a resource is shown exactly if its last operation was a registration. Reading a ui:// resource by uri is not restricted by the code and not part of the claim."
 ],
 "C29": [
  "partial",
  "Exact for every history in which the client is subscribed to something; no update of a subscribed URI is ever missed, in every interleaving. False for a client subscribed to nothing (everything is announced) and for a race of unsubscribe with subscribe that switches the filter off; both counterexamples are proved."
 ],
 "C30": [
  "partial",
  "Exact for debug, info, warning and error in any letter case, after every history. Counterexamples: messages of the severities notice, critical, alert, emergency are treated as debug; minima notice, critical, alert, emergency let lower ones through."
 ],
 "C31": [
  "proved",
  "Decisions, bound per window, limit in force and twice the limit per second, for every interleaving of log calls and limit changes; a counterexample shows that N per arbitrary second does not hold. Clock assumed monotone where stated."
 ],
 "C32": [
  "partial",
  "Closure iff the trailing failures reach the threshold, for every history; exact equality for the first closure. Counterexample: the count survives a closure, so after switching off and on a single failure closes."
 ],
 "C33": [
  "proved",
  "Each registration call is one atomic step (the code holds registryMutex). RegisterTool(name, handler) is proved to keep earlier metadata."
 ],
 "C34": [
  "partial",
  "Proved: whatever is answered carries the id of the request and either a result or an error; unknown methods; documented methods; initialize; ping. False for handlers that throw something else than std::exception (counterexamples); proved answered when handlers return or throw std::exception, except tasks/result of an unfinished task, which waits."
 ],
 "C35": [
  "proved",
  ""
 ],
 "C36": [
  "partial",
  "Codes of type int; wider codes are truncated (counterexample)."
 ],
 "C37": [
  "proved",
  ""
 ],
 "C38": [
  "proved",
  "A ttl of 2^63 ms or more never hits; concurrent change of the ttl in the middle of a call is not modelled."
 ],
 "C39": [
  "partial",
  "False when a list call stands between its reply and the store when the notification is handled (race counterexample)."
 ],
 "C40": [
  "partial",
  "False for error, null and result-less replies, which are cached as an empty list; exceptions and strict failures are not cached."
 ],
 "C41": [
  "proved",
  "Every JSON validator (tool call, resource read, prompt, completion, listings, tasks, roots, sampling, elicitation) accepts exactly the tabulated shape, for every JSON value; built content always passes. Null shared_ptrs inside values are not modelled."
 ],
 "C42": [
  "partial",
  "every request that runs a handler or changes a session carries an admitted token, refusals have the documented status; opening an event stream is not guarded (counterexample)"
 ],
 "C43": [
  "partial",
  "headers of the form of an authority or origin, for every verb and target; some malformed headers are let through (counterexample)"
 ],
 "C44": [
  "partial",
  "delivery in order and once, answers, removal, lookup; fails when an id is drawn twice and when a send races with the removal (counterexamples)"
 ],
 "C45": [
  "partial",
  "streams read in whole events, line ends of both kinds; counterexamples for reads that end inside a line and for retry values out of range"
 ],
 "C46": [
  "partial",
  "at most once in all histories; which exchanges complete their request is exact (iff), with counterexamples for foreign responses and requests as bodies; Close for requests filed before it, counterexample for the race"
 ],
 "C47": [
  "partial",
  "A request is handed to the handler exactly when it says neither word; handed requests are answered once under their id if the answer fits. Requests saying either word are never answered (counterexamples)."
 ],
 "C48": [
  "partial",
  "The parser terminates on every header and reads every well-formed Bearer challenge exactly; the server header is read back exactly when the metadata address has no comma, leading quote or outer blanks. False for an address with a comma, which the server writes unquoted (C48_comma_counterexample)."
 ],
 "C49": [
  "proved",
  "Strings are lists of bytes; empty texts are not sent, which is part of the statement."
 ],
 "C50": [
  "partial",
  "The history of the token is proved for replies that are token responses or do not name access_token; after a failed fetch the old token stays although it may have expired, some refusals are read as tokens, escapes are kept and a lifetime of zero is replaced: counterexamples."
 ],
 "C51": [
  "partial",
  "Proved for schemes in lower case, names and IPv6 addresses; a scheme with capital letters loses the port: counterexample."
 ],
 "C52": [
  "partial",
  "False in two ways: the flags of tools, resources and prompts are read as set whenever the member is present, and a client never writes its extensions. Proved for the remaining fields in both directions."
 ],
 "C53": [
  "proved",
  "For any paged call: listAll returns exactly the concatenation of the pages or the exception; for this library's server the sorted registry, with icons of documented themes (others are dropped, C62)."
 ],
 "C54": [
  "partial",
  "Innermost context on every thread and restoration proved for all histories; handlers on other threads (task-mode tools, std::async handlers) are told nothing (C54_other_thread_counterexample)."
 ],
 "C55": [
  "partial",
  "All RFC 8259 texts except surrogate-pair escapes, integers beyond 64 bits, repeated names; counterexamples proved."
 ],
 "C56": [
  "partial",
  "Delivery proved when the pipe has been emptied; data loss on hang-up proved for every number of iterations."
 ],
 "C57": [
  "partial",
  "Exact deadline for timeouts up to 100 years; disabling (0) always overflows: proved."
 ],
 "C58": [
  "partial",
  "False: lost wakeup (flag cleared and notified without the mutex) proved to hang under every continuation; proved for all schedules without that window."
 ],
 "C59": [
  "partial",
  "Proved while the timeout is never lowered; for every pair of lowered timeouts a late execution is proved."
 ],
 "C60": [
  "partial",
  "Strict mode only; counterexample in the default mode."
 ],
 "C61": [
  "partial",
  "Successes are always reported, error responses always fail; lost responses are failures only in strict mode (counterexample), and a result with members code and message is misread (counterexample)."
 ],
 "C62": [
  "proved",
  ""
 ],
 "C63": [
  "proved",
  "Sequential registrations; the announcement follows the change within the call. Delivery by the transport is not part of the claim."
 ],
 "C64": [
  "partial",
  "False: an error answer ends the loop and the pages so far are returned (counterexample with a strict server of this library). Proved for servers that answer every page without an error."
 ],
 "C65": [
  "proved",
  ""
 ],
 "C66": [
  "partial",
  "False for handlers that throw something else than std::exception (counterexample over all continuations). Proved otherwise."
 ],
 "C67": [
  "proved",
  ""
 ],
 "C68": [
  "proved",
  "All six calls, at the level of request and response values; the JSON text and the transports are C01 to C16."
 ],
 "C69": [
  "partial",
  "Proved while nothing was closed and the server was not stopped; counterexamples after a closure (never resumes for any continuation without switching off) and after Stop."
 ],
 "C70": [
  "partial",
  "Proved for every history without SetCapabilities; counterexample with it."
 ],
 "C71": [
  "partial",
  "Proved for the task calls and Ping. Complete and GetTaskResult report failures as values (counterexamples); for Complete, non-empty values come from a success."
 ],
 "C72": [
  "proved",
  ""
 ],
 "C73": [
  "partial",
  "Proved for handlers that return or throw standard exceptions; other exceptions escape and leave the request unanswered (C73_escape_counterexample)."
 ],
 "C74": [
  "partial",
  "Proved for roots, elicitation and the sampling options that have a parameter in the handler; the other sampling options never reach it (C74_sampling_options_counterexample)."
 ],
 "C75": [
  "proved",
  "All results and parameters of a strict client."
 ],
 "C76": [
  "partial",
  "Start and delivery proved for all histories; tasks whose handler throws a non-standard exception never end (C76_lost_task_counterexample)."
 ],
 "C77": [
  "partial",
  "Proved for everything the library's own server sends; integer progress and tokens of foreign servers are misread (C77_integer_progress_counterexample, C77_integer_token_counterexample)."
 ],
 "C78": [
  "partial",
  "Proved for roots, elicitation and task requests; sampling results are not checked (C78_sampling_counterexample)."
 ],
 "C79": [
  "proved",
  "For items whose icons use documented themes and, in strict mode, entries the validator accepts."
 ],
 "C80": [
  "partial",
  "stays on with the verifier; the required scopes are overwritten by SetProtectedResourceMetadata (counterexample)"
 ],
 "C81": [
  "partial",
  "false; what is true is that messages go to the session created last unless it was removed"
 ],
 "C82": [
  "proved",
  "against the model of the server, with the session id drawn as a parameter"
 ],
 "C83": [
  "partial",
  "all paths but the notification path (counterexample)"
 ],
 "C84": [
  "partial",
  "transports not started again after Close; counterexamples for restarted ones"
 ],
 "C85": [
  "partial",
  "names without quotes, backslashes or control characters; counterexample with a quote"
 ],
 "C86": [
  "partial",
  "Proved for issuers and for server URLs with at most one path segment; false for longer paths: counterexample."
 ],
 "C87": [
  "partial",
  "Proved for documents whose member names do not occur quoted earlier and for the escapes the code knows; counterexamples for nested names and code point escapes."
 ],
 "C88": [
  "partial",
  "Proved for schemes in lower case or none and hosts without colons; counterexamples for capital letters and IPv6. TLS itself is not modelled."
 ],
 "C89": [
  "partial",
  "Soundness and first document in full; the composition with the server is proved for names that need no escaping in JSON."
 ],
 "C90": [
  "partial",
  "Order, at most once, id match, bounds, answers of the own request under distinct ids, close; counterexamples for lost answers, the close race and the opener that leaves."
 ],
 "C91": [
  "proved",
  ""
 ],
 "C92": [
  "partial",
  "Requests, answers, messages and refusals that survive the wire format, own ids pairwise different; counterexamples for a session the server lost and for a session of another version."
 ],
 "C93": [
  "partial",
  "Requests, answers, messages and refusals that survive the wire format, ids given on each side pairwise different; counterexample: an answer whose connection fails is never sent again and the server has no timeout."
 ],
 "C94": [
  "partial",
  "False of the code: on stdio no handler is ever told a response, in every execution (counterexample theorems). Proved: its requests fail by their time limits, so that it comes to its end and is answered."
 ],
 "C95": [
  "partial",
  "False of the code: on stdio a cancellation written after the request is never seen by its handler, in every execution. Proved: what is seen was written before the request and names its id."
 ],
 "C96": [
  "proved",
  "A request handler is installed and the write queue takes every frame (its limit is C12); one Start; time limits are not switched off."
 ],
 "C97": [
  "partial",
  "Full for the texts described (numbers in decimal digits within range); what signs, units, semicolons, line ends, zero, numbers from 2^32 on and capital schemes do instead is proved as counterexamples. The texts of the environment and of demo programs are not modelled."
 ],
 "C98": [
  "partial",
  "Full for texts of the documented forms; malformed texts are counterexamples. Resolving host names and creating queues are outside the model."
 ],
 "C99": [
  "proved",
  "Both directions for every text; resolving the address and binding come after the check and are outside the model."
 ]
}