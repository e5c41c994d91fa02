# Formal model of mcp-cpp: design

Target: the C++ sources in `/repo` (vparla/mcp-cpp at a pinned commit), read as text. The model and
proofs are in `lean/` (Lean 4.33.0, Lake project, one directory per area under `lean/Verif/`).

## Trusted base

- Lean's kernel, and the three standard axioms `propext`, `Classical.choice`, `Quot.sound` (each property
  theorem depends on a subset of these; `lean/Verif/Axioms.lean` prints the list for every one).
  No axioms of our own, no `sorry`, no `native_decide`, no `bv_decide`.
- The reading of the C++ code. Every definition in a `Model.lean` file cites file and lines; where it
  simplifies, the comment says so. Nothing here is compiled or run against the C++ code.
- Behaviour of the standard library as documented (`std::string::find`, `stoll`, `to_string`,
  `unordered_map`, `std::promise`, mutexes giving mutual exclusion).

## Modelling conventions

- Bytes are `Char`s, strings are `List Char` (`Bytes`). Theorems quantify over all characters, hence over all bytes.
- A C++ exception is a distinct outcome (`none`/`throw`); undefined behaviour is a distinct outcome.
- `unordered_map` is an association list in iteration order; theorems quantify over every order.
- Mutex-protected critical sections are atomic steps; concurrent executions are arbitrary lists of steps.
- Clocks are parameters (`Nat` time stamps attached to steps). Threads, sockets, TLS, epoll are not modelled.
- Doubles are an abstract type with a print and a parse function (parameters), see C02.

## Plan per property

- **C01 — JSON string contents survive the wire.** Model `serializeJSONValue` (string case) and `JsonParser::parseString` over byte lists; prove `parseString (quote s ++ rest) = ok (s, rest)` by induction on `s`.
- **C02 — JSON values survive serialise-then-parse.** Model the whole value serialiser and recursive-descent parser (fuel-indexed). Induct on the nested value. Holds for values with plain keys, distinct keys, int64 integers and doubles whose print/parse pair is the identity (double formatting is a parameter). Negations by witness for quoted keys and for doubles.
- **C03 — The JSON parser is total and only ever moves forward.** Fuel-indexed parser: prove fuel `length+1` is always enough (never the out-of-fuel outcome), and that the remainder is a suffix.
- **C04 — Requests survive Serialize / Deserialize.** Model `Serialize`/`Deserialize` with substring search; prove round trip under quote-free id/method; witness of failure with a quote in the id.
- **C05 — Responses survive Serialize / Deserialize.** Same machinery; partial theorem when nested keys do not collide, witness with `{"error":..}` nested in the result.
- **C06 — Notifications survive Serialize / Deserialize.** Same machinery.
- **C07 — Deserialising a peer's request depends only on its JSON meaning.** Negation by witness (member order; whitespace before colon); partial theorem for texts in the library's own member order with arbitrary whitespace after the colon.
- **C08 — A framed message is decoded exactly.** Model `encode`/`tryDecodeEx` byte by byte including header line splitting, `stoull` and the 64-bit overflow guard.
- **C09 — Frame reading is independent of how bytes are chunked.** Model `drainFrames` + append of chunks; prove chunk independence through prefix stability of `tryDecodeEx`.
- **C10 — Oversized frames are never delivered.** Invariant on everything `drainFrames` delivers.
- **C11 — Malformed headers do not wedge the reader.** Resynchronisation lemma for `InvalidHeader`, termination of the drain loop by consumption > 0.
- **C12 — The stdio write queue is bounded and ordered.** State machine of the write queue (enqueue, dequeue, partial write, overflow); invariants by induction over op lists.
- **C13 — Stdio requests are answered at most once and never by someone else's response.** State machine of pending requests (send, response, sweep, close).
- **C14 — Every routed request gets exactly one response with its own id.** Model `route` with handlers as parameters (functions returning response / null / exception).
- **C15 — Message classification looks only at the top level.** Model `hasTopLevelKey`/`classify`; prove for serialised messages by a scanning lemma over serialised values.
- **C16 — In-memory transport delivers in order, once, with matching answers.** Two-endpoint state machine with queues; invariants over all interleavings.
- **C17 — Task ids are unique.** `TaskStore` state machine; invariant `ids nodup` given the generator's counter.
- **C18 — A finished task never changes.** `TaskStore` state machine; monotonicity of terminal records over op lists.
- **C19 — Listing tasks page by page shows every task exactly once.** Generic paging lemma instantiated with `ListTasks` arithmetic.
- **C20 — Task objects survive serialisation.** Round trip through the JSON value model.
- **C21 — A template match is a real instantiation.** Model the backtracking matcher; soundness by induction on the parsed template.
- **C22 — Template matching misses nothing.** Completeness of the leftmost-shortest search.
- **C23 — Resource reads resolve to at most one handler.** Model `resolveResourceRead` over an arbitrary registry; case theorem.
- **C24 — A ranged read returns exactly the requested slice.** Model slicing over content items and relate to list `drop`/`take` of the concatenation.
- **C25 — Chunked reading reassembles the whole resource.** Compose the client loop model with the server slice model; termination by remaining length.
- **C26 — Cancelling one request never cancels another.** State machine of the cancellation maps with an independent history specification.
- **C27 — Paged listings enumerate the registry exactly once.** Model page slicing and cursor arithmetic; prove concatenation of followed pages is the sorted registry.
- **C28 — UI resources stay hidden from clients without the UI extension.** Model the visibility filter composed with paging.
- **C29 — Resource update notifications follow subscriptions.** State machine against a set specification; witness for the empty-set behaviour.
- **C30 — Log messages respect the client's minimum level.** Model level parsing and the threshold test.
- **C31 — Log rate limiting.** Limiter state machine over a clock; count per window.
- **C32 — Keepalive closes after exactly the configured number of consecutive failures.** Counter state machine; equivalence with 'exists run of n consecutive failures'.
- **C33 — Registering and unregistering behave like a map.** Refinement of the registry containers to a finite map.
- **C34 — Every server request is answered under its own id.** Model `dispatchRequest` decision structure with handlers as parameters.
- **C35 — Task-mode tool calls follow the tool's declaration.** Decision table over all cases.
- **C36 — Error objects keep their meaning.** Model `Errors.h` functions, int64→int truncation explicit.
- **C37 — Icons survive serialisation.** Model icon parsing/serialisation over the JSON value model.
- **C38 — Cached listings are never older than the TTL.** Cache state machine over a clock.
- **C39 — list_changed invalidates the cache.** Split list call into reply and store steps; witness for the race, theorem for non-overlapping calls.
- **C40 — A failed listing is not cached as an empty list.** Negation by witness; partial for success replies.
- **C41 — Strict validation accepts exactly the documented shapes.** Model validators as Bool functions on JSON values; independent shape predicates.
- **C42 — Bearer authentication guards every request.** Model `CheckBearerAuth` and the request decision tree; witness for the unguarded stream.
- **C43 — A loopback-bound server rejects foreign Host and Origin headers.** Model the host extraction; IP parsing (`boost::asio::ip::make_address`) is a parameter.
- **C44 — HTTP sessions are isolated.** Session table state machine.
- **C45 — Server-sent events carry messages intact.** Model event writing and the client's line parser per read; witness for mid-line splits, theorem for line-aligned splits.
- **C46 — HTTP client requests always complete.** Pending table state machine with HTTP outcomes; witness for foreign bodies.
- **C47 — Shared-memory transport answers every request.** Model the substring classification; witness; partial for params free of the two quoted texts.
- **C48 — Authentication challenges are understood by the client.** Model the header builder and challenge parser; round trip for quoted parameters, plus the exact unquoted form the server emits.
- **C49 — Form encoding is unambiguous.** Model encoder, independent decoder specification, round trip.
- **C50 — OAuth tokens are refreshed before they expire.** Token cache state machine over a clock.
- **C51 — Metadata discovery probes the well-known URLs of the same origin.** Model URL splitting and building.
- **C52 — Capabilities survive the initialize handshake.** Model both serialisers/parsers over the JSON value model.
- **C53 — List-all helpers collect every page.** Client loop over the paging model.
- **C54 — Request context is scoped.** Stack discipline of the scope objects.
- **C55 — The parser reads every valid JSON text as its meaning.** Independent inductive definition of RFC 8259 texts (`Verif/Json/Spec.lean`), completeness of the parser model against it; witnesses for surrogate pairs and big integers.
- **C56 — What the peer wrote before closing is delivered.** Model one iteration of the epoll loop against a pipe with pending bytes and a hang-up flag; prove delivery when the pipe is emptied, and the loss for every number of iterations when the hang-up comes first.
- **C57 — Request deadlines mean what was configured.** Model the deadline arithmetic in signed 64-bit nanoseconds with overflow as a distinct outcome.
- **C58 — Stopping a transport returns.** Two-thread state machine (test, sleep / clear, notify, join); invariant for race-free schedules, counterexample stuck under every continuation. Modules Sync/*.
- **C59 — Request timeouts fire on time.** Timer machine with the sleep target of the thread; invariant: target below every deadline while the timeout is never lowered; counterexample otherwise. Modules Stdio/Timer*.
- **C60 — A chunked read never silently truncates.** loop invariant over the chunk loop with an arbitrary failure pattern; counterexample for the default mode quantifies over all texts longer than a chunk.
- **C61 — Typed calls report success exactly when the server did.** case analysis of the future's outcome; the result shapes of C41 give what is returned.
- **C62 — Listed items arrive as registered.** C62 items: field-by-field look-up lemmas over the written association list.
- **C63 — Registry changes are announced.** Induction over the history with the list of notifications as a ghost variable.
- **C64 — List-all is complete or fails.** Counterexample with this library's own strict server, and the statement restricted to servers that answer without errors.
- **C65 — A task delivers what the synchronous call would have returned.** C65 task results equal synchronous results: Server/TaskFlowProps over Server/Dispatch and Task/Model.
- **C66 — Every tool task ends when its handler does.** C66 tool tasks end: Server/TaskFlowProps.
- **C67 — A strict server never sends a result of the wrong shape.** C67 strict results: Server/StrictProps over Server/Dispatch and the shapes of Validation/Spec.
- **C69 — Keepalive keeps going while it is switched on.** Settings machine with the loop thread; invariant `LoopOk`, dead state `Stuck`.
- **C70 — Advertised settings are the ones in force.** Settings machine; invariant `Advertised`.
- **C68 — A call hands over the arguments and brings back the answer.** Client/Calls builds the parameters, Server/Dispatch answers; composition proved by rewriting both sides (Client/CallProps).
- **C71 — A call does not report success when the server reported failure.** Case analysis over outcomes; counterexamples compose with the dispatcher (Client/CallProps).
- **C72 — Task calls show the task the server has.** Composition of the client's calls with Server/Dispatch and the task store invariant `Inv`/`SrvGood` (Client/CallProps).
- **C73 — Every request to the client is answered under its own id.** Client/Requests models onRequest branch by branch; the property is checked in each branch (Client/RequestProps).
- **C74 — What the server asks reaches the client's handler and its answer comes back.** Composition of the server's parameter writers with the client's readers and back (Client/RequestProps).
- **C75 — A strict client sends no result and hands over no parameters of the wrong shape.** Branch analysis with the shape theorems of C41 (Client/RequestProps).
- **C76 — Tasks of the client deliver what the request would have returned, and end.** Invariant over client histories (task store in order, workers distinct and of the kind of their task), outcome of a finished record is permanent (Client/TaskProps).
- **C77 — Progress, status and other notifications arrive as sent.** Reading back what the server writes, case analysis of onNotification (Client/RequestProps).
- **C78 — A strict server accepts only answers of the documented shape.** Shape theorems of C41 on the server's reading of answers (Client/RequestProps).
- **C79 — Unpaged list calls return everything registered.** Client/Cache reads the answer of Server/Listing; composition (Client/CacheProps).
- **C80 — Bearer authentication stays on with its settings.** Http/Auth; induction over setter calls, counterexample for the scopes (Http/AuthProps).
- **C81 — Messages of the server go to the session they concern.** Http/Sessions; what is true is stated from the history alone (lastLive), with counterexamples (Http/SessionProps).
- **C82 — Endpoint requests act within one live session.** Http/Server over Http/Sessions; case analysis of serve plus the frame lemmas of the sessions (Http/ServerProps).
- **C83 — An HTTP request gets the answer of its handler.** Http/Server; case analysis of serve over the router model (Http/ServerProps).
- **C84 — An HTTP client transport that is connected sends what it is given.** Http/Transport; invariant of a stopped io context over all continuations, invariant of a transport started once (Http/TransportProps).
- **C85 — The metadata of a protected resource is what was set.** Http/Server against the JSON model; the document equals the serialisation of the intended object (Http/MetadataProps).
- **C86 — Discovery probes the well-known URLs of the standards.** Auth/Discovery; the exact lists as a function of the parts of the URL, a grammar of URLs as the specification (Auth/DiscoveryProps).
- **C87 — Metadata documents are read as they are.** Auth/Discovery; a grammar of documents as the specification, disagreement with the JSON model as counterexamples (Auth/DocumentProps).
- **C88 — An https URL is fetched over TLS from its host.** Auth/Discovery connOf; case analysis over the grammar of URLs (Auth/DiscoveryProps).
- **C89 — Discovery finds what the server publishes.** Composition of Auth/Discovery with Http/Server (Auth/DocumentProps).
- **C90 — Shared-memory transport delivers in order, once, with matching answers.** SharedMemory/Model; two-sided transition system, invariants by induction over executions (SharedMemory/Lemmas, Traffic, Props).
- **C91 — The HTTP client sends what it was asked to send and nothing else.** Http/Transport; history invariants by induction over executions (Http/SendProps).
- **C92 — A request over HTTP is handled at most once and answered with its own answer.** Http/Link composes the models of both sides; invariants over executions (Http/LinkProps).
- **C93 — A request of the server over HTTP is put to the client once and answered with the client's answer.** Invariants over the executions of Http/Link on both sides, ids of the server's requests distinct along every path of a message (Http/ReverseLemmas, Http/ReverseProps).
- **C94 — A handler can ask the other side and gets the answer.** Handlers as trees of actions run by the one reader thread, joined with the model of C13; invariants over all executions (Stdio/ServeModel, ServeLemmas, ServeProps). False of the code in every execution; termination by time limits by induction over the handler.
- **C95 — A cancellation that arrives while a call runs reaches its handler.** The same model joined with the cancellation tables of C26: the history of the tables is tied to the messages taken. False of the code in every execution.
- **C96 — Requests read from standard input are answered once each and in order.** The same model: conservation of messages taken, progress by induction over the messages and the handlers.
- **C97 — A configuration text means what it says.** Readers as functions on texts (Config/Model); texts described by inductive predicates independent of the readers; induction over the settings. False for `timeout_ms=0`, line ends, signs and units, semicolons, numbers from 2^32 on and schemes in capital letters.
- **C98 — The address and the channel in a configuration text are the ones used.** The same model; a grammar of texts as inductive predicates, proved to be read as meant. False of unclosed brackets (all interfaces), bare IPv6 addresses, HTTPS in capitals, channel names with a question mark.
- **C99 — The HTTP server accepts exactly the valid ports.** Decimal numbers as an inductive predicate; equivalence with the checks of the code.
- **C100 — Log output does not disturb the messages on standard output.** Log/Model puts the logger beside the writer of C12; standard output is what both write. With MCP_STDIO_MODE an invariant and C12 end to end. Without it false: an invariant of the reader (the text before the next header does not begin like the length field) shows that nothing is read ever after.
- **C101 — Each log entry is written exactly when its level asks for it.** The same model; what is to be written is defined from the history of calls alone, conservation by induction. False of unknown level names and of the fatal entry on standard output.
- **C102 — A call gives the result its answer says, once, whenever the answer comes.** Await/Model has the bodies of the calls as trees of effects and runs any number of them one effect at a time beside each other. Invariant: what a call has seen so far, followed by what its rest can still see, is a path through its body; requests belong to one call (a permutation).
- **C103 — What is passed to a call may go when the call has returned.** The same model with the life of the arguments; invariant: what is left of a body after it was suspended reads no parameter. False of GetTaskResult.
- **C104 — Destroying a client does not harm calls under way.** The same model with the life of the client. True of the calls that only pass the answer on, false of the others.
- **C105 — No request waits for ever for the registry.** Lock/Model runs any number of threads one act at a time around the mutex. Invariant: the acts left for a thread are balanced with respect to whether it holds the mutex, so the holder never waits; the work left decreases with every act, so a fair schedule ends. False of prompt handlers, which run under the mutex.
- **C106 — A server's own calls mirror what its clients get.** Server/Local has the three calls beside the dispatcher of Server/Dispatch; the theorems compare them on the request the client makes. Reads agree whenever something is found; tools and prompts agree within limits, and four counterexamples show the limits.
- **C107 — When Stop is over nothing of the server runs.** Life/Model has the threads of a server around Stop for the three transports, one stretch at a time. Invariants over all executions: a future is in the group until its worker has ended (tasks begun before Stop have ended), and a stop without requests under way leaves nothing (quiet). Four counterexamples show that calls under way, tasks beginning late, messages already taken and servers not stopped break it.
- **C108 — Stop comes to an end.** The same model. Liveness by a rule with helpful steps: a measure no step raises, lowered by a step each thread takes sooner or later; three phases of Stop. Counterexamples: a state nothing leads out of, proved an invariant.
- **C109 — The event stream of an HTTP client is kept open while it is connected and let go by Close.** Http/Stream has the thread of the stream, one blocking call at a time, with a clock. Invariants over all executions (delay of the options stays in force without a retry field; nothing is handed on when disabled); the composition with the server's writer over any number of connections uses C45. The life of the thread object is in Http/Transport: invariant that a joinable thread is at work or no stream begins again; counterexamples for the rest.
- **C110 — Every request of an HTTP client carries the credentials in force, and what the server says of them can be looked up.** Http/Exchange has the exchange as a coroutine with its one suspension inside the credentials (the OAuth object of Auth/Token). The spec is the record `Bears` of the header fields of a request. Invariants over all executions: each waiting exchange has a call of its own under way; every request on the wire bears a session id some response gave; by the rule of use no object needed is gone. Composed with the server's bearer check (Http/Auth) and its challenge (C48).
- **C111 — What is built with the typed helpers is read on the other side as it was built.** Client/Builders has the builders as folds over the calls made; composed with the calls of C68 and C74 and the validators of C41. The spec reads the last value and the texts off the list of calls (Client/BuilderProps).
- **C112 — Keepalives come one interval apart, and switching keepalive off silences it.** Server/Beat has the thread and the calls step by step, with a clock. Invariants over all executions; the rhythm and the time limits for executions in which time passes only when nobody can go on (`Prompt`); that the call returns by a measure under fair schedules.
- **C113 — A call of the server gives what its client's answer says, once, and asks only for what was announced.** Await/ServerCalls has the bodies for the machine of Await/Model. What bodies keep true of the members stays true and is what later calls see (Await/Held); the outcome by going through each body; sending before looking is excluded by a predicate on bodies.
- **C114 — Over standard input and output a call gets the answer of the other side's handler to it.** Stdio/Duplex joins the models of C08 to C13 and C94 on both sides of two pipes, byte by byte. Invariants (DuplexLemmas, DuplexInv, DuplexFlow): bytes read are a prefix of the frames queued, each payload has its origin, each key one call. Coming to rest by a measure every effective step lowers (DuplexRest).
- **C115 — A call of a client gives what the server's handler returned for it, end to end over standard input and output.** Whole/Model puts the calls of the client (C99 to C102), the pair of transports (C114) and the dispatcher (C32 to C41) together. Whole/Inv links futures to requests and answers to dispatches; Whole/Mirror maps an endless execution to one of the pair of transports whose handler is chosen from it, which carries the coming to rest of C114 over. Whole/GoneProps says what ends the process of the handlers and that it does nothing afterwards.
- **C116 — A call of a client gives what the server's handler returned for it, end to end over HTTP.** Web/Model puts the calls of the client (C99 to C102), the HTTP link (C91, C92) and the dispatcher (C32 to C41) together. Web/Inv gives each call its future and each future its filed request; Web/Once shows that a flight is served once, and that a handler may be exchanged for one that agrees on what was handled, which carries the invariant of the link over. Web/Flow follows the POST of a request (queued, under way, ended) and Web/SettleProps shows that calls come to their end when every exchange does.
- **C117 — An HTTP server can be started, stopped, started again and destroyed.** Http/ServerLife has the members of the server and a step for each thing a thread does between two waits. What is told follows from an invariant over the log; that Start and Stop come to their end is shown for endless executions with fair turns. Six things are false of the code: `Stop` during the beginning of the accept loop leaves the port open; an io context that was stopped is never restarted, so a second Start never becomes ready; Start on a server whose thread was not joined ends the process; a write to a slow reader keeps Stop waiting; handlers outlive Stop and the destructor; the destructor without Stop waits for event streams that nobody ends.
- **C118 — A stdio transport can be started, closed, started again and destroyed.** Stdio/Life has the members of the transport and a step for each thing a thread does between two waits. That nothing is left, that nothing breaks and that the input is not divided follow from an invariant; that Close returns is shown for endless executions with fair turns by a rank (Base/Fair). Much is false of the code: Start on a started transport ends the process; the destructor of a transport that is not closed never returns; threads that Close let go use the destroyed transport, read the input of the next life and end it; Close in a second life waits for a handler without limit; requests that failed with the close are sent in the next life, and the rest of a frame is missing on the output.
- **C119 — An in-memory transport can be started, closed, started again and destroyed.** InMemory/Life has the members of one transport of a pair and a step for each thing a thread does between two waits. That threads end, that messages are taken in order and that nothing is used afterwards follow from an invariant; that the destructor returns is shown for endless executions with fair turns by a rank (Base/Fair). Much is false of the code: Start on a started transport, and Start right after Close, wait for a thread that sleeps until a message comes; meanwhile two threads take messages; the handler is called after Close; messages of one life are handled in the next; requests that are being handled use the destroyed transport; a transport uses the other one after it was destroyed.
- **C120 — Shared-memory transports of one channel can be started, closed, started again and destroyed.** SharedMemory/Life has the members of one transport (`Sm`), whose queues are input, and a channel with any number of transports (`Chan`): the two names, what they stand for and the queues. Each transport of a channel lives a life of a single one, so that invariants of these carry over; that calls return and that an opener is told of the end of its creator is shown for endless executions with fair turns by a rank (Base/Fair). Much is false of the code: Start on a started transport, even one that fails, takes the queue away from the thread that waits on it; Start right after the end of the peer is undone by the thread of the life before; requests that are being handled use the destroyed transport; the end of one creator removes the names of another; of two openers one is told of the end; a creator that is destroyed without Close tells nobody.
- **C121 — The functions of a server may be used from several threads without a data race.** Race/Model is a small language of functions that read, write, lock, call and start threads, with its executions, "happens before" and "data race" on the list of events; Race/Sound proves two ways of being free of races (always under one mutex; written only before threads are started) for every program and every execution, and how a race is seen. Race/Server says function by function what the server does to its members. The registries, the cancellation of requests, the log window and the task store are free of races whatever is done; the settings are when they are made before Start. False of the code: the set of subscriptions is read outside its mutex, the capabilities of the client are written under none, the keepalive can be switched on neither before nor after Start without a race, and no handler can be set after it.
- **C122 — The functions of a transport may be used from several threads without a data race.** Race/Transports says function by function what three transports do to their members, in the language of Race/Model. The queues and the waiting requests are free of races whatever is done; the handlers and limits are when they are set before Start; the time of the last input is, because only the reader touches it (Race/Confined proves that way of being free of races for every program). False of the code: handlers and the framer replaced after Start; Close in a handler while Start still stores its threads; Start after Close in shared memory while a request of the life before sends its answer.
- **C123 — The functions of a client may be used from several threads without a data race.** Race/Client says function by function what the client does to its members, in the language of Race/Model. The caches, the cancellation of requests, the kinds of tasks and the task store are free of races whatever is done; the handlers and settings are when they are set before Connect; what the server said it can do is when Initialize is called once. False of the code: Initialize stores the capabilities of the client while the transport runs, and a server that asks for a task at once makes the client read them; handlers set after Connect; the time to live of the caches changed while a listing is under way; two calls of Initialize at a time.
- **C124 — The functions of both ends of HTTP may be used from several threads without a data race.** Race/Http says function by function what the two ends of HTTP do to their members. The waiting requests, the id of the session, the last answer, the sessions with what waits in them, and the threads of the streams are free of races whatever is done; the handlers, the authentication and the options are when they are set before Start. False of the code: Close while initialize is being answered, on the thread of the stream; IsConnected and GetSessionId of the server, on the id of the active session; Stop that does not wait for Start, on the acceptor.
- **C125 — IsRunning says whether the server is serving an initialized client.** Server/Handshake follows the flag and the connection through every order of calls and messages. IsRunning is exactly: told that a client is initialized since the last Stop that closed a transport, and the transport is connected if there is one; it is false after Stop until the next Start. False of the code: the client of this library never sends the notification the flag waits for; Stop without a transport leaves it; a notification handled after Stop, or a second Start, makes the next client look initialized.
- **C126 — The initialize handshake is answered and announced once, answer first.** In every execution the server sends for one request at most: the four notifications in order if it is an initialize, then the answer, each once; all of them while the connection stays; none of the notifications without a transport; and a client that gets them has dropped its caches of listings. False of the code: the answer comes last; and requests that come before initialize are answered.
- **C127 — What was kept for a request is let go when the request is over.** Every token kept is that of a running request or was left by a cancellation that came when none ran; every stop source kept is that of a running handler; when nothing runs and no cancellation came too early or too late, nothing is kept; the HTTP server keeps exactly the sessions opened and neither removed nor stopped. False of the code: n requests cancelled after their end leave n tokens for ever; every task ever made is kept, whatever its time to live; sessions of clients that went away, and all that is queued for a session without a stream, are kept.
- **C128 — What a client lists comes from the server it is connected to.** Client/Reconnect joins the list calls and their cache with the transports given to Connect one after another. Every listing returned was said in reply to a call of that kind over the transport in use or an earlier one; over the one in use if there is no caching, or once the cache has been dropped after a Connect that came when no call was under way. False of the code: Connect and Disconnect leave the caches, so the listing of the server before is given; a listing cut off by Disconnect is cached as empty for the next server; a listing before Connect goes through a null pointer.
- **C129 — A call of a client gives what the server's handler returned for it, end to end over the in-memory transport.** Near/Model puts the calls of the client (C99 to C102), the pair of in-memory transports (C16) and the dispatcher (C32 to C41) together. Near/Lemmas maps each execution to one of the pair of transports and links futures to requests and answers to dispatches; Near/SettleProps follows one request through queue, handler thread and queue to the future of its call. Near/GoneProps says what ends the process of the handlers and that it does nothing afterwards.
- **C130 — A call of the server to its client gives what the client's handler returned for it, end to end over the in-memory transport.** Ask/Model puts the calls of the server (C112, C113), the pair of in-memory transports (C16) and the request handler of the client (C74) together. Ask/Calls shows that each body asks once at the most; Ask/Lemmas maps each execution to one of the pair and shows that the ids are the transport's own or the callers'; Ask/HandlerProps reads the answers back to what the handlers returned; Ask/SettleProps follows one request to the future of its call. Ask/GoneProps says what ends the process of the handlers and that it does nothing afterwards.
- **C131 — The result a client gets for a task is what the tool returned for the arguments of the call that started the task.** Server/TaskOriginProps keeps, as an invariant of all executions, where each worker and each outcome comes from. Whole/TaskLemmas follows the two requests of a task through any world that contains a server; Near/TaskProps, Whole/TaskProps and Web/TaskProps apply it to the three compositions of C129, C115 and C116.
- **C132 — The result a server gets for a task of its client is what the client's handler returned for the request that started the task.** Client/TaskOriginProps keeps, as an invariant of all executions of a client, where each worker and each outcome comes from. Ask/TaskProps follows the two requests of a task through the composition of C130.
- **C133 — A call of a client gives what the server's handler returned for it, end to end over the shared-memory transport.** Share/Model puts the calls of the client (C99 to C102), the pair of shared-memory transports (C47, C90) and the dispatcher together, with the step between the check of SendRequest and the filing of the promise kept apart. Share/Lemmas links each call to its future, Share/Open tells why a request is not answered, Share/Props joins them to C90 and C102. Share/SettleProps follows a request from the moment it is filed to the end of its call over endless executions with fair turns; Share/SettleCase has such an execution. Calls that say `result` or `error` are never dispatched: `C133_words_counterexample`. Share/GoneProps says what ends the process of the handlers and that it does nothing afterwards.
- **C134 — A call of a server to its client gives what the client's handler returned for it, end to end over the shared-memory transport.** Back/Model puts the calls of the server (C113), the pair of shared-memory transports (C47, C90) and the request handler of the client (C73, C74) together. Back/Names shows that ids given by callers, if given once and not of the form of the transport's, never meet the ids the transport makes; Back/Props joins this to C90 and C113. Back/SettleProps follows a request through both queues over endless executions in which the threads have their turns; Back/TaskProps joins two such calls to C132. Calls that say `result` or `error`, such as an elicitation whose message is `error`, never reach the client: `C134_words_counterexample`. Back/GoneProps says what ends the process of the handlers and that it does nothing afterwards.
- **C135 — A call of a server to its client gives what the client's handler returned for it, end to end over standard input and output.** Pipe/Model puts the calls of the server (C113), the two stdio transports with their pipes (C114) and the request handler of the client (C73, C74) together; Pipe/Props joins C113 and C114 by way of the requests on the pipes, Pipe/TaskProps follows tasks to their workers, Pipe/SettleProps runs the whole beside a pair of transports whose handlers are an oracle (Pipe/Mirror) and uses C114's end. Pipe/GoneProps says what ends the process of the handlers and that it does nothing afterwards.
- **C136 — A call of a server to its client gives what the client's handler returned for it, end to end over HTTP.** Reach/Model puts the calls of the server (C113), the HTTP link (C92, C93) and the request handler of the client (C73, C74) together. Reach/Names gives each SendRequest of the HTTP server the session, the promise and the id of its request; Reach/Inv ties the calls to them and each event that was handled to the place where it was; Reach/Props joins C113 and C93 by way of the ids. Reach/TaskProps follows the tasks of the client to their handlers (C73). Reach/AnswerProps (with Reach/Way) shows that from any state in which a client listens the straight run of steps answers a call; Reach/SettleProps shows, for endless executions, that a call ends once the transport has let go of its request, by closing the session among other ways. Reach/StreamProps shows, for endless executions too, that a request whose session stays open is written to a stream of the session, Reach/HeedProps that the client whose streams they are then handles it, Reach/ReturnProps that the answer the client queues is posted and frees the promise, and Reach/LiveProps joins these: in every fair execution in which nothing fails the call comes to its end; Reach/LostProps has a fair execution in which one connection fails and the call waits for ever. Reach/GoneProps says what ends the client's process and that it does nothing afterwards.

## What is modelled

One line per module of the model: the source it follows, and where it stops. The comments in the modules cite lines for each definition.

| Module (`lean/Verif/`) | Source | Scope and simplifications |
|---|---|---|
| `Json/Model` | `src/mcp/JSONParser.cpp`, `JSONRPCTypes.h` | Serialiser and parser in full. Doubles abstract; objects are association lists; null `shared_ptr`s inside values left out; C++ stack depth left out; `parseSimpleJSON("")` (undefined behaviour) left out. |
| `Rpc/Model` | `JSONParser.cpp` 305-607, `JsonRpcMessageRouter.cpp` | `Serialize`/`Deserialize` by text search, classification and routing in full. |
| `Framer/Model` | `ContentLengthFramer.cpp`, `StdioTransport.cpp` 255-288 | In full, 64-bit `size_t`. |
| `Stdio/PendingModel`, `TimerModel`, `ReadModel`, `WriteModel` | `StdioTransport.cpp` | Pending requests and deadlines, the sleep of the timeout thread, one iteration of the epoll loop against a pipe, the write queue and the writer. Windows branch and thread detaching left out. |
| `Stdio/ServeModel` | `StdioTransport.cpp` 255-265, 980-998, `Server.cpp` 921-926, 988-994, 1137-1156 | The reader thread running handlers; a handler is a tree of actions (return, send a request and wait, read the stop token). Refused frames of the write queue and handlers that start threads of their own left out. |
| `Stdio/Duplex` | `StdioTransport.cpp` 202-287, 463-464, 540-560, 700-722, 826-925, 980-998, 1151-1204 | Two transports and the two pipes between them, byte by byte: pending requests, write queue and writer, reader and decoder, handlers on the reader thread, and `connected` as one flag for all of them. One `Start` on each side; end of input, hang-up and the idle limit are one step `cut`; what a stop token says is left open. |
| `Whole/Model` | `Client.cpp` calls (as in Await/Model), `StdioTransport.cpp` (as in Stdio/Duplex), `Server.cpp` 1534-1536 (as in Server/Dispatch) | A client and a server over two stdio transports. Futures of the transport are the cells the calls wait for; the answer of `dispatchRequest` is queued by the reader thread of the server. Dispatch is one step; handlers of the server send no requests from within it; the client is not destroyed. |
| `Near/Model` | `Client.cpp` calls (as in Await/Model), `InMemoryTransport.cpp` (as in InMemory/Model), `Server.cpp` 1534-1536 (as in Server/Dispatch) | A client and a server over a pair of in-memory transports that have been started. Futures of the transport are the cells the calls wait for; `serve` is the detached thread of a request: it runs `dispatchRequest` and sends the answer, in one step. An exception that is no `std::exception` leaves that thread and ends the process. Handlers of the server send no requests from within the dispatch; the client is not destroyed. |
| `Share/Model` | `Client.cpp` calls (as in Await/Model), `SharedMemoryTransport.cpp` (as in SharedMemory/Model), `Server.cpp` 1534-1536 (as in Server/Dispatch) | A client and a server over a pair of shared-memory transports that have been started, in two processes; either may be the creator. The check of `SendRequest`, the filing of the promise (`file`), the sending, both processing threads and the handlers are separate steps; futures of the transport are the cells the calls wait for. An exception that is no `std::exception` ends the process of the server; the client goes on. Handlers of the server send no requests from within the dispatch; the client is not destroyed. |
| `Back/Model` | `Server.cpp` calls to the client (as in Await/ServerCalls), `SharedMemoryTransport.cpp` (as in SharedMemory/Model), `Client.cpp` 1086-1088 (as in Client/Requests) | A server and a client over a pair of shared-memory transports, the calls of the server to its client as one system. As in the parts; a dispatch is one step; requests of the client are steps of the pair. Not modelled: destruction of either object. |
| `Pipe/Model` | `Server.cpp` calls to the client (as in Await/ServerCalls), `StdioTransport.cpp` (as in Stdio/Duplex), `Client.cpp` 1086-1088 (as in Client/Requests) | A server and a client over standard input and output, the calls of the server to its client as one system. As in the parts; a dispatch is one step. Not modelled: destruction of either object; requests the client's handlers send from within. |
| `Reach/Model` | `Server.cpp` calls to the client (as in Await/ServerCalls), `HTTPServer.cpp` 1102-1137 and `HTTPTransport.cpp` 458-501, 517-560 (as in Http/Link), `Client.cpp` 1086-1088 (as in Client/Requests) | A server and a client over HTTP, the calls of the server to its client as one system. As in the parts; the handling of an event is one step; looking for the session, filing the promise and queueing the text are three steps of `SendRequest`; other clients and requests of this client are steps of the link. Not modelled: destruction of either object; requests the client's handlers send from within. |
| `Ask/Model` | `Server.cpp` calls 1976-2117, 2331-2731 (as in Await/ServerCalls), `InMemoryTransport.cpp` (as in InMemory/Model), `Client.cpp` 664-1073 (as in Client/Requests) | The other direction of Near/Model: calls of the server that the client answers. The id a caller of `RequestCreateMessageWithId` gives is handed to the transport; all other requests get one of the transport. `serve` is the detached thread of a request: it runs `onRequest` and sends the answer, in one step. The application may exchange the handlers of the client and its workers may end at any time. Handlers of the client send no requests from within `onRequest`; the server is not destroyed. |
| `Web/Model` | `Client.cpp` calls (as in Await/Model), `HTTPTransport.cpp` and `HTTPServer.cpp` (as in Http/Link), `Server.cpp` 1534-1536, 2771-2777 (as in Server/Dispatch), `HTTPServer.cpp` 993-995 | A client and a server over HTTP. Futures of the transport are the cells the calls wait for; the request handler of the HTTP server is `dispatchRequest`; an exception that leaves it ends the connection without an answer. Dispatch is one step; handlers of the server send no requests from within it; other clients are steps of their own; the client is not destroyed. |
| `Base/Fair` | none | Endless executions and the rule by which something is shown to come about: a rank, and in every state a kind of step that makes it smaller and comes again and again. |
| `Stdio/Life` | `StdioTransport.cpp` 56-90, 161-176, 420-572, 667-722, 875-975, 1029-1145 | The life of a stdio transport: `Start`, `Close`, the destructor and the threads that read, write and watch the deadlines. One call at a time; `Close` may come from a handler; `SendRequest` is one step; waits with a time limit may end at any time; condition variables wake all who sleep; what handlers do plays no part; the bound of the write queue is left out. |
| `InMemory/Life` | `InMemoryTransport.cpp` 28-78, 80-134, 158-172, 192-217 | The life of one transport of an in-memory pair: `Start`, `Close`, the destructor, the threads that take messages and those of requests. One call at a time; the other transport is input: it sends messages and may be destroyed; the kind of a message is input; a message is a number; no spurious wakeups. |
| `SharedMemory/Life` | `SharedMemoryTransport.cpp` 38-82, 84-148, 219-346 | The life of shared-memory transports: `Start`, `Close`, the destructor, the threads that take messages and those of requests; and any number of transports on one channel with its two names and its queues. One call at a time on each transport; the part of `Start` that makes or opens the queues is one step, so is the removal of the names; sizes are left out: whether a send works is input; what an answer belongs to is input. |
| `Race/Model`, `Race/Sound` | (the C++ memory model, as far as used) | Functions as code that reads, writes, locks, calls and starts threads; executions; happens before; data race. Values, and with them which branch is taken, are left out: every statement may be left out by an execution. Joining a thread orders nothing. |
| `Race/Server` | `Server.cpp` 152-225, 325-457, 588-623, 668-1186, 1188-1489, 1504-2332, 2294-2732, 2762-2953, 3010-3338; `TaskSupport.h` 294-527 | Which members each function of the server and of its task store reads and writes, and under which mutex. A container is one member; the transport is another object; the destructor is left out. |
| `Race/Transports`, `Race/Confined` | `InMemoryTransport.cpp` 28-287; `StdioTransport.cpp` 57-288, 420-572, 667-722, 826-1253; `SharedMemoryTransport.cpp` 39-459 | Which members each function of three transports reads and writes, and under which mutex. As in `Race/Server`; what a transport does to its peer is a call of a function of the peer. |
| `Race/Client` | `Client.cpp` 183-310, 384-458, 510-627, 664-1450, 1452-2078, 2096-2321; `TaskSupport.h` 294-527 | Which members each function of the client reads and writes, and under which mutex. As in `Race/Server`; what follows a `co_await` is a function of its own that runs on a thread of its own. |
| `Race/Http` | `HTTPTransport.cpp` 60-1010; `HTTPServer.cpp` 49-224, 362-396, 408-608, 639-1175 | Which members each function of the two ends of HTTP reads and writes, and under which mutex. As in `Race/Server`; one thread runs `ioc`; one session of the server is looked at; the authenticator is another object. |
| `Server/Handshake` | `Server.cpp` 1504-1568, 1740-1767, 1921-1940, 2762-2769, `HandleInitialize`, `HandleJSONRPC` | The flag `initialized`, the transports a server is started with one after another, and what is sent for each request, one step for each message handled and for each message sent. What the answer contains is in `Server/Dispatch`; here it is known by its id only. |
| `Client/Reconnect` | `Client.cpp` 1075-1112, 2105-2109, with `Client/Cache` | The transports a client is given one after another, and over which of them each list call is made. Replies come when they come; what they say is a parameter. |
| `Http/ServerLife` | `HTTPServer.cpp` 50-86, 109-133, 184-207, 406-507, 938-1085 | The life of the HTTP server: `Start`, `Stop`, the destructor, the accept loop, connections, handlers on their own threads, event streams. One call at a time, none from a thread of the server; a handler is a sequence of uses of members; a session is a flag and a number; how socket operations end is an input; the data race of `Stop` on the acceptor is not distinguished. |
| `Sync/Model` | `StdioTransport.cpp` 930-1130, `InMemoryTransport.cpp` 52-65 | The handshake of a stopping call with a waiting thread. |
| `InMemory/Model` | `InMemoryTransport.cpp` | Two endpoints, all critical sections. One `Start` per endpoint. |
| `SharedMemory/*` | `SharedMemoryTransport.cpp` 37-444 | A pair of endpoints. A Boost queue is a list with a bound on its length and on message sizes; the creator starts once; no third process, no stale queues, no destruction. |
| `Task/Model` | `TaskSupport.h`, `Server.cpp` 1572-1688 | Task store in full; the wall clock is an argument. |
| `Resource/TemplateModel`, `ReadModel` | `Server.cpp` 257-457, 946-1019 | Template matching, choice of handler, slicing. |
| `Server/CancelModel` | `Server.cpp` 1020-1156 | Tokens and stop sources as numbered objects. |
| `Server/Registry`, `Listing`, `Items` | `Server.cpp` 493-807, 1771-1836, 2786-2912, 3224-3295, `Client.cpp` 31-175 and the paged calls, `ClientTyped.h` 351-405 | Registrations as atomic steps; the four item kinds share one body where the source repeats itself. |
| `Server/Caps` | `Server.cpp` 1188-1367, `Client.cpp` 323-458, 1113-1131 | The initialize handshake. |
| `Server/Dispatch` | `Server.cpp` 809-944, 1369-1457, 1549-1738, 1838-1919, 2294-2329 | Every method; handlers are opaque, their outcome an environment. |
| `Server/Local` | `Server.cpp` 1950-1974, 2119-2156 | The calls of the application on its own server, as functions of the same state and handlers as the dispatcher. |
| `Server/Notify`, `Settings`, `Context` | `Server.cpp` 37-113, 2199-2329, 3047-3341, `ServerAuth.cpp` 18-67 | Notifications, rate limiter, keepalive, thread-local contexts. |
| `Server/Beat` | `Server.cpp` 1924-1931, 2742-2749, 3047-3139 | The keepalive thread and the calls that start and stop it, load by load and store by store, with a clock. One call at a time; how a send ends is an input. |
| `Client/Calls`, `Cache`, `Requests`, `TypedModel`, `Builders` | `Client.cpp`, `ClientTyped.h`, `typed/Prompts.h`, `typed/Sampling.h`, `typed/Content.h` | Calls, list cache, requests of the server, typed wrappers, the chunked reader and the builders of arguments and results. Log output left out. |
| `Errors/Model`, `Validation/Model` | `Errors.h`, `Validators.h`, `Content.h` | In full on JSON values. |
| `Http/Challenge`, `Auth`, `Headers` | `WwwAuthenticate.cpp`, `ServerAuth.cpp`, `HTTPServer.cpp` 226-361, 640-697 | Boost's address parser is a parameter; token verifiers are functions. |
| `Http/Sessions`, `Server` | `HTTPServer.cpp` | Sessions, queues, serving of one request. HTTP parsing (Boost), sockets, TLS left out. |
| `Http/Events`, `Transport`, `Stream` | `HTTPServer.cpp` 441-463, `HTTPTransport.cpp` 40-1014 | Event streams, pending requests, life cycle, the thread that keeps a stream open with its clock. Sockets, TLS, beast timeouts left out. |
| `Http/Exchange` | `HTTPTransport.cpp` 124-147, 173-233, 297-453, 573-588, 977-1018, `BearerAuth.hpp` | The header fields of every request, the credentials objects with who holds them, `SetAuth`, the last response. A data race of `SetAuth` with the io thread at one moment is left out. |
| `Http/Link` | the two above together | A client and a server joined by a network that delivers headers and bodies as they are or loses the exchange; a request is served in one step. |
| `Auth/Form`, `Token`, `Discovery` | `OAuth2ClientCredentialsAuth.cpp`, `OAuthClient.cpp` 25-55, `OAuthDiscovery.cpp` | Everything but the exchange itself. |
| `Config/Model` | `StdioTransport.cpp` 92-121, 1218-1314, `HTTPTransport.cpp` 1016-1120, `SharedMemoryTransport.cpp` 471-544, `HTTPServer.cpp` 951-977, 1176-1260 | What the factories read in their texts; the check of the port. |
| `Log/Model` | `Logger.h`, `Logger.cpp`, `EnvVars.h`, `StdioTransport.cpp` 1031 | The logger beside the writer of the stdio transport. Formatting of messages left out; when `std::cout` passes its buffer on is up to the environment. |
| `Await/Model` | `Task.h`, `FutureAwaitable.h`, `Client.cpp` 1113-2080 | The calls of the client as trees of effects, run one effect at a time; reading what is gone is undefined behaviour. `Connect` and `Disconnect` are left out. |
| `Await/ServerCalls` | `Server.cpp` 1474-1489, 1976-2117, 2331-2731 | The calls of the server to its client as bodies of the same machine. Members are read one by one; the transport, once set, stays. Replacing the transport by a second `Start` and the unlocked writes of `initialize` are left out. |
| `Lock/Model` | `Server.cpp` 1109 and every guard of `registryMutex` | Threads around the mutex of the registry, one act at a time; handlers are lists of what they do to their server. Template matching, the set of subscribed uris and the outcome of a handler are left out. |
| `Life/Model` | `Server.cpp` 1921-1940, 2739-2750, `Client.cpp` 1098-1112, `TaskSupport.h` 294-341, the `Close` and `SendRequest` of three transports | The end of a server or client: threads that serve requests, workers of tasks, the reading thread, `Stop`, destruction. Handlers are trees of the requests they send; one `Stop`; the keepalive thread and the HTTP transport are left out; the members are destroyed in one step. |

## Not modelled

Socket and pipe I/O, TLS, `poll`, thread scheduling fairness, memory safety of `shared_ptr`
graphs and of the detached threads of the transports, the demo programs, the network exchange
of OAuth, `Windows` branches.

## Disagreements between code and stated property

### Observed while reading, not stated as theorems

- JSON: an unterminated string is accepted, text after the value is ignored, garbage is read as null, the last of repeated keys wins.
- Envelope: `{"method":5}` is read as method `{`; `Response::Deserialize` reports success for every text.
- Router: notification handlers that throw are not caught; on the io thread of the HTTP client this ends the process.
- Stdio: errors made for timeouts and on `Close` carry the text form of integer ids; threads detached after 500 ms may touch a freed object.
- In-memory: a second `Start` may block for ever in the assignment of the thread.
- Tasks: `ttl` is never enforced.
- Cancellation: the server reads the member `id` of the parameters, the protocol names it `requestId`; a cancellation that arrives after
  the end of a call hits the next call with that id.
- Prompts: `handlePromptsGet` holds the registry mutex while the handler runs; a handler that registers something deadlocks.
- HTTP server: sessions never expire and are not bound to the token they were opened with; an event is taken from its queue before it is written.
- HTTP client: the HTTP status of a response is ignored; session header names are compared with their case; the time limit of beast does
  not cover synchronous reads of the event stream, so that `Close` may wait for the server.
- OAuth: the HTTP status of the token reply is ignored; `caFile` and `caPath` are not used for the token request.

### Proved

<!-- generated by tools/design.py -->

- `C02_backslash_key_counterexample`: C02 fails for a member name containing a backslash: it parses to a different name.
- `C02_double_counterexample`: C02 fails for doubles: of two different doubles with the same six-decimal text (such as `0.0` and `1e-9`), at least one is not read back.
- `C02_key_counterexample`: C02 fails for a member name containing a quote: the text is not even parseable.
- `C04_id_injection_counterexample`: C04 fails with a quote in the id: a peer that chooses ids can make the receiver see another method.
- `C04_quoted_id_counterexample`: C04 fails with a quote in the id: another id comes back.
- `C05_nested_error_counterexample`: C05 fails: a tool result that mentions a member `error` turns a success into an error at the receiver.
- `C05_nested_result_counterexample`: C05 fails: an error whose data mentions a member `result` arrives with a result as well.
- `C07_order_counterexample`: C07 fails for member order: with params first, an `id` inside params is taken as the request id.
- `C07_whitespace_counterexample`: C07 fails: two texts with the same JSON meaning (they differ only by a space before a colon) deserialise to different requests: the id is lost in one.
- `C100_default_counterexample`: C100 is false of the default settings. `Start` itself logs an entry to standard output; if it is passed on before the first message is written, the other side never reads anything.
- `C100_inside_counterexample`: C100 is false without `MCP_STDIO_MODE`, in another way: text passed on while the writer is in the middle of a message becomes part of the message. Whatever the message and the entry, and wherever in the body the writer has stopped (a full pipe): the other side is handed a text with the entry in it and without its end.
- `C100_lost_counterexample`: C100 is false without `MCP_STDIO_MODE`: the first byte of the log that is passed on to standard output, at whatever time between two messages, ends the conversation. Whatever is sent and logged later, whatever the time it is passed on between messages, the other side never reads another message: the entry becomes the name of a header field, the message is dropped for want of a length, its text takes the place of the entry before the next message, and so on.
- `C101_fatal_lost_counterexample`: C101 is false of the last entry: a fatal entry, and everything logged before it that `std::cout` has not passed on, is never seen, unless `MCP_STDIO_MODE` is on or there is a log file: the macro ends the process without passing the buffer on.
- `C101_unknown_counterexample`: C101 is false of texts that are no level of the logger, the names of the protocol and plain ways of asking for silence among them: whoever asks for emergencies only, or for nothing, is sent everything from `INFO` on.
- `C103_task_result_counterexample`: `GetTaskResult` with a string that the caller does not keep: whatever the task id and the result, when the answer comes after `await_ready` the body looks the id up in a string that is gone (Client.cpp 1338).
- `C104_list_counterexample`: A listing that is not in the cache: when the client is destroyed before the answer is worked on, the body reads and locks members of the client that are gone (Client.cpp 1474, 1512-1517), whether the answer is a listing, an error or null; only an exception spares it.
- `C104_result_counterexample`: Every other call that does more than pass the answer on: an answer with a result makes it read the client that is gone.
- `C105_prompt_handler_counterexample`: Whenever the handler of a registered prompt uses the registry of its server (registers, unregisters or lists something, calls a tool, reads a resource or gets a prompt locally), serving that prompt blocks the server: after the request, whatever happens from then on, the request itself is not answered, nor any later one that needs the registry.
- `C105_slow_prompt_counterexample`: Even a prompt handler that leaves the server alone keeps every other thread waiting: while it runs, no later request that needs the registry is answered, however much the other threads are scheduled, until the handler's own thread is.
- `C105_updated_counterexample`: A prompt handler that merely announces an updated resource blocks the server for good once a client has subscribed to resources, which any client may do without naming one.
- `C106_required_counterexample`: A tool that requires a task is refused to a client's plain call and run by the application's.
- `C106_strict_counterexample`: A strict server gives a client an error for a result of the wrong shape, and the application the result.
- `C106_structured_counterexample`: Structured content and metadata of a tool's result reach a client and not the application's own call, whatever they are.
- `C106_unknown_counterexample`: A client is told that there is no such tool, prompt or resource; the application's own call ends like one that returned null.
- `C107_call_counterexample`: A call that is being served when `Stop` is called goes on when it is over, for every transport and every handler; when the server is destroyed then, the rest of the call uses what is gone.
- `C107_taken_counterexample`: With the in-memory transport, and with the stdio transport when the time limit of `Close` strikes, it is not enough that no request is being served: the reading thread may have taken a message, and the handler begins after the destruction.
- `C107_task_counterexample`: A task can begin when `Stop` is over: its request was on its way to the handler, and nothing waits for the threads that serve requests.
- `C107_unstopped_counterexample`: Destroying a server that was not stopped does not stop it: the next request is handled by what is gone.
- `C108_ask_counterexample`: With the in-memory transport, a task whose handler sends a request to the client after `Stop` has closed the transport waits for ever, and so does `Stop`: the transport does not refuse the request, and the response is dropped. Whatever happens afterwards, for every handler that asks anything.
- `C108_race_counterexample`: With every transport: a request of a task that `SendRequest` has let through enters the table of pending requests after `Close` has emptied it, and `Stop` waits for ever.
- `C109_delay_counterexample`: The server sends a delay with its stream and the connection ends: `Close` waits as long as the server said, up to 49 days, whatever happens meanwhile.
- `C109_gone_counterexample`: A session the server no longer knows (404) is asked for again and again: the thread never gives up, and the session is not begun anew.
- `C109_status_counterexample`: A status line of an error whose text has "200" in it begins a stream, and the body of the error is read as events.
- `C109_terminate_counterexample`: The server answers the request for the stream with an empty Mcp-Session-Id header: the thread gives up for lack of a session id and nothing waits for it; the next initialize that gets a session id begins a stream over it, which ends the process (`std::terminate`).
- `C10_huge_length_counterexample`: C10, limit of the claim: a length of 2^64 or more is a malformed header rather than an oversized frame, so the reader goes on and takes what the peer wrote as the body for new frames.
- `C110_alive_counterexample`: C110, false when credentials are set while a token is fetched: the OAuth object made from the options belongs to the transport alone, the request that waits for its token uses it after `SetAuth` has destroyed it.
- `C110_fetch_counterexample`: C110, false when a token cannot be fetched: the endpoint does not answer or its answer holds no token. The request is sent all the same, with the token that is no longer fresh, or without any.
- `C110_session_counterexample`: C110, false for a session id whose field is not written exactly `Mcp-Session-Id` (names of fields are the same in any case): it is not taken, and the requests after it carry none.
- `C111_bare_counterexample`: C111, false for a client that reads prompt messages by the protocol: none of those the builders make has a role or a content.
- `C111_role_counterexample`: C111, false for prompt messages as the protocol has them, with a role and a content: they are valid and arrive, but `collectText` and `firstText` find no text in them, whatever the roles and texts are.
- `C112_callback_counterexample`: C112, false after keepalive was switched off in the error callback: the thread cannot join itself and is never replaced. Keepalive may be switched on as often as one likes afterwards, and time may pass: nothing is sent, unless it is switched off once more from outside.
- `C112_change_counterexample`: C112, false for an interval that is set anew: the thread wakes up and sends a keepalive at once instead of waiting for the new interval (the comment at 3093 says otherwise). However long all the intervals are, any number of keepalives is sent in no time when the interval is set that often.
- `C112_lost_wakeup_counterexample`: C112, false for a thread that is about to fall asleep. The stop flag is stored and the thread woken without the mutex of the wait. If this comes between the look at the flags and the sleep, the thread sleeps on for the whole interval, and switching keepalive off takes as long: for every interval `d` there is an execution, without any delay, at the end of which the call waits for the thread, and it is still waiting as long as less than `d` has passed, whatever happens.
- `C113_destroyed_counterexample`: Every other call that has asked reads the server again when an answer with a result comes, also when the server is gone by then.
- `C113_not_started_counterexample`: A task call on a server that was not started goes through a null pointer (Server.cpp 1988, 2012, 2050, 2072, 2104), while the other calls notice and give an empty result or throw.
- `C113_sampling_counterexample`: The sampling request goes to every client, also to one that announced nothing; so do the requests about tasks.
- `C113_task_result_counterexample`: `GetTaskResult` with a task id that the caller does not keep: when the answer comes after `await_ready` the body looks the id up in a string that is gone (Server.cpp 2083).
- `C114_oversize_counterexample`: C114. An answer larger than the content limit of the caller ends the connection, and the call stays open: no time limit and no message completes it, until `Close` is called.
- `C117_destroy_hangs_counterexample`: C117. The destructor of a server that was not stopped does not return while there is an event stream whose reader stays: it joins its thread and does not tell it to end.
- `C117_handler_counterexample`: C117. But a thread that handles a request may go on, and when the server is destroyed it uses members that are no more, before the destructor returns.
- `C117_port_counterexample`: C117 fails: when `Stop` comes before the accept loop has the port, the loop takes the port after `Stop` has looked for it; `Stop` returns, and the server still holds the port and takes connections that nobody serves.
- `C117_restart_counterexample`: C117. Once `Stop` has returned, the server never listens again and no future of `Start` that is not ready becomes ready, neither of an earlier nor of a later `Start`, whatever is called and however the threads take turns: nothing calls `io_context::restart`. So whoever waits for a second `Start` waits for ever.
- `C117_stop_hangs_counterexample`: C117. A `write` to a reader of an event stream that takes nothing keeps `Stop` from returning: it has no time limit and `Stop` does not close its socket.
- `C117_twice_counterexample`: C117. A `Start` that comes before a `Stop` has returned ends the process (a thread is assigned to a joinable one), be it that the first had failed.
- `C118_ghost_counterexample`: C118 fails: a thread left behind may end after the next `Start`, and then it marks the transport as disconnected: nobody closed it, its input did not end, no write failed.
- `C118_given_up_counterexample`: C118 fails: a handler that runs longer than 500 ms is left to itself by `Close`; the transport is destroyed, and when the handler returns its thread goes on with the destroyed transport.
- `C118_second_close_counterexample`: C118 fails: in a second life `Close` waits for a handler without a time limit, since `readerExited` is still true from the first.
- `C118_self_counterexample`: C118 fails: the same when a handler closes the transport, as one does that is asked to shut down, however quick everybody is.
- `C118_stale_counterexample`: C118 fails: a request that was told that the transport is closed is sent by the next `Start`.
- `C118_torn_counterexample`: C118 fails: of a frame that is being written when the transport is closed a part is on the output, and the first frame of the next `Start` follows right after it.
- `C118_twice_counterexample`: C118 fails: `Start` on a transport that is started ends the process.
- `C118_two_readers_counterexample`: C118 fails: when `Close` has left a thread that reads to itself and the transport is started again, two threads read the input by turns, and neither gets it whole.
- `C118_unclosed_counterexample`: C118 fails: the destruction of a transport that was started and not closed never comes to its end, whatever is done: it waits for the thread that watches the deadlines, which nobody wakes, or the process ends, since the thread that writes is joinable.
- `C119_after_close_counterexample`: C119 fails: after `Close` has returned the notification handler is called, with a message of before.
- `C119_destroy_counterexample`: C119 fails: a thread that was about to sleep when the destructor woke the sleepers is not woken; the destructor does not return, whatever the turns.
- `C119_handler_counterexample`: C119 fails: a request that is being handled when the transport is destroyed uses it afterwards.
- `C119_overlap_counterexample`: C119 fails: while `Start` waits for the thread of the life before, which is in a handler, the new thread calls the handler too: two notifications are handled at the same time.
- `C119_peer_counterexample`: C119 fails: a transport whose other side is destroyed uses it when it sends, instead of failing the request.
- `C119_restart_counterexample`: C119 fails: nor does `Start` right after `Close`: the thread of the first life, woken by `Close`, finds the transport connected again and sleeps.
- `C119_stale_counterexample`: C119 fails: a message of one life is handled in the next.
- `C119_twice_counterexample`: C119 fails: `Start` on a started transport does not return before a message comes.
- `C120_handler_counterexample`: C120 fails: a request that is being handled when the transport is destroyed uses it afterwards.
- `C120_orphan_counterexample`: C120 fails: an opener whose creator is destroyed without `Close` says that it is connected, and its request has no answer, however long it goes on.
- `C120_reconnect_counterexample`: C120 fails: a transport that was told that its peer is gone and is started again, as soon as it says that it is not connected, is ended by the thread of the life before: `Start` has succeeded and the transport is not connected, and stays so.
- `C120_refused_counterexample`: C120 fails: even a `Start` that fails does so, when it fails at the second queue.
- `C120_twice_counterexample`: C120 fails: `Start` on a transport that is started takes the queue away from the thread that waits on it.
- `C120_two_creators_counterexample`: C120 fails with two creators: the end of the first removes the names of the second, which runs, and no opener can join it.
- `C120_two_openers_counterexample`: C120 fails: of two openers only one learns that the creator was closed; the other says that it is connected, and its request has no answer, however long it goes on.
- `C121_client_capabilities_counterexample`: `initialize` writes the capabilities of the client (1258-1343) under no mutex; `resources/list`, sent without waiting for the answer, reads them at 592.
- `C121_keepalive_after_start_counterexample`: Switching the keepalive on after `Start` races as well: it writes the capabilities, which `initialize` is reading.
- `C121_keepalive_before_start_counterexample`: Switching the keepalive on before `Start` races: its thread reads the pointer to the transport at 3098, which `Start` writes at 1506.
- `C121_late_handler_counterexample`: A handler set after `Start` races with the requests that look for it.
- `C121_subscriptions_counterexample`: Two requests of the peer suffice: `resources/unsubscribe` looks at the set of subscriptions at 1873 after it has released the mutex, while `resources/subscribe` inserts into it. Counting also every order that atomics may give.
- `C122_in_memory_late_handler_counterexample`: In memory, a handler that is set after `Start` races with the thread that looks for it.
- `C122_shared_memory_restart_counterexample`: In shared memory, `Start` after `Close` replaces the queue (237, 240) into which a request of the life before still sends its answer (169).
- `C122_stdio_close_in_handler_counterexample`: On standard input and output `Start` stores its threads after they have begun to run (668, 876, 928); a handler that calls `Close` at once reads what `Start` is writing.
- `C122_stdio_framer_counterexample`: `SetMaxContentLength` after `Start` replaces the framer (1252) that the reader and the senders use.
- `C123_capabilities_counterexample`: `Initialize` stores the capabilities of the client (1120) when the transport already runs; a server that asks for a task without waiting makes the client read them (709). No program can avoid it: `Initialize` needs the transport that `Connect` has started. Counting also every order that atomics may give.
- `C123_late_handler_counterexample`: `SetNotificationHandler` after `Connect` inserts into the map (2249) in which a notification looks for its handler (619).
- `C123_ttl_counterexample`: One thread of the program is enough: it calls `ListTools`, does not wait for the answer, and calls `SetListingsCacheTtlMs`; what follows the answer reads the time to live (1512) while it is written (2301, 2309).
- `C123_two_initializations_counterexample`: Two calls of `Initialize` at a time race on what the server said it can do (390-454).
- `C124_server_active_session_counterexample`: `IsConnected` and `GetSessionId` read the id of the active session without the mutex (1094, 1098) under which `initialize` writes it (173).
- `C124_server_stop_counterexample`: `Stop` right after `Start` looks at the acceptor (1074) that the other thread is storing (987).
- `C124_transport_close_counterexample`: A `Close` while `initialize` is being answered races on the thread of the stream (220-222 and 514).
- `C125_late_notification_counterexample`: A notification that is read before `Stop` and handled after it makes the next client look initialized.
- `C125_no_transport_counterexample`: A server without a transport (one behind an HTTP server) goes on running after `Stop`.
- `C125_own_client_counterexample`: With a client of this library at the other end the server is never running, however long it serves it: the client sends no `initialized`. Here: in every execution in which the notifications that arrive are of the kinds the client sends.
- `C125_second_start_counterexample`: A second `Start` without a `Stop` takes over the flag of the first client.
- `C126_answer_first_counterexample`: The answer of an `initialize` is the last thing the client gets for it, not the first: four notifications come before it, and among them an `initialized`, which is for clients to send.
- `C126_before_initialize_counterexample`: A request that comes before `initialize` is answered like any other.
- `C127_abandoned_sessions_counterexample`: Clients that go away without asking for their session to be removed leave it for as long as the server runs: however many sessions with different ids are opened, they are all there.
- `C127_late_cancellations_counterexample`: Cancellations that come after their request has ended are kept for ever: after `n` such requests, none of which is running, there are `n` entries.
- `C127_tasks_counterexample`: A server or client keeps every task it has ever made, ended or not, and whatever time to live it was given: there are as many records as tasks were created, and every one of them can still be asked for.
- `C127_unread_counterexample`: What the server sends to a session no stream is open for is kept for as long as the session is: however many notifications, they are all queued.
- `C128_cached_counterexample`: A listing that is cached outlives the connection it came over: a client that is connected to another server within the time to live is given the listing of the server before.
- `C128_cut_off_counterexample`: A listing that is cut off by `Disconnect` ends as an empty one and is cached, also when that comes after the next server has announced its listings: the client is then given an empty listing no server has sent.
- `C128_unconnected_counterexample`: A listing asked for before `Connect` goes through a null pointer.
- `C133_words_counterexample`: C133 fails for a call that says `result` or `error`, as its method, as the name of a member of its parameters or as a string in them: the server never dispatches it, and if the call ends it was told that there is no answer.
- `C134_words_counterexample`: C134 fails for a call that says `result` or `error`, as its method, as the name of a member of its parameters or as a string in them: the client never handles it, and if the call ends it was told that there is no answer.
- `C136_lost_counterexample`: C136 (counterexample), one failed connection: there is an execution that meets all that `C136_live_partial` asks but one thing: everybody has their turn again and again, the session stays open on both sides, no write fails, the client listens and answers and its posts are admitted. Once, at one step, a connection for an answer fails. The client does not try again (src/mcp/HTTPTransport.cpp 483 posts each answer once), and the call waits for ever.
- `C13_alias_counterexample`: C13, limit of the claim: two outstanding requests with the same id text (here the integer 5 and the string "5") share one slot; the first future is broken and the answer to the first request completes the second.
- `C13_close_race_counterexample`: C13, limit of the claim: a `SendRequest` that races with `Close` is never completed by it, nor by any number of timeout sweeps or further `Close`-free disconnects.
- `C13_disconnect_hang_counterexample`: C13, limit of the claim: once the connection is lost (end of input, overflow) without `Close`, the timeout thread has ended and an outstanding request stays incomplete however much time passes.
- `C14_no_handler_counterexample`: C14 fails for a request that cannot be deserialised or when no request handler is installed: the message falls through to the notification handler although it carries an id.
- `C15_backslash_id_counterexample`: C15 fails for an id ending in a backslash: the request is no longer recognised as one (its `method` member is swallowed into the id text).
- `C16_peer_close_counterexample`: C16, completion fails: a peer that closes after a request reached its queue leaves the request's future incomplete for ever; the requester is told nothing.
- `C16_send_after_close_counterexample`: C16, completion fails: `SendRequest` on an endpoint that has been closed is accepted and delivered to the peer, but its future never completes, whatever the peer does, until the endpoint is started or closed again.
- `C21_repeated_name_counterexample`: C21 fails for repeated names: "{a}-{a}" matches "1-2", and no value of `a` turns the template into that URI.
- `C25_huge_chunk_counterexample`: C25 fails for chunk sizes of 2^63 and more: the length is negative on the wire and the server refuses the first read.
- `C26_shared_id_counterexample`: C26 fails for two calls running under one id: when one ends, a later cancellation of the id no longer reaches the other, whatever the (non-empty) id.
- `C26_text_id_counterexample`: C26 fails between ids of different types: cancelling the string id `"7"` cancels the call with the number id 7.
- `C29_flag_race_counterexample`: C29, false for overlapping requests. An unsubscribe request that looks at the set before, and stores the flag after, a concurrent subscribe request leaves the filter switched off: though the client is subscribed to `a` only and no request is under way, every later update is announced until the next subscription request.
- `C29_unsubscribed_counterexample`: C29, false as stated. A client that is subscribed to nothing (it never subscribed, or it has cancelled every subscription) is sent every update.
- `C30_dropped_counterexample`: C30, false for the severest messages. A message logged as critical, alert or emergency (the protocol's own names) is dropped when the client asked for warnings and worse; so is a notice when it asked for info.
- `C30_passed_counterexample`: C30, false for the severest minima. A client that asks for emergencies only is still sent errors; one that asks for notices is still sent infos.
- `C31_burst_counterexample`: C31: the limit is not a limit on every second. For every `N` there is an execution in which `2 N` messages are let through within one second (two nanoseconds, in fact) although the limit is `N` all the time.
- `C32_restart_counterexample`: C32, false after a closure. The count of failures survives the closure: switch keepalive off and on again, and a single failed send closes the transport at once, though the threshold is 3.
- `C34_escape_counterexample`: C34. False for user code that throws anything else: the exception leaves the dispatcher and the request is not answered. Shown for prompts, completion and sampling; for tools see `C34_tool_escape_counterexample`.
- `C34_tool_escape_counterexample`: C34. Also a tool that throws anything but a `std::exception` leaves its request unanswered, although it has run.
- `C36_wide_code_counterexample`: C36 fails for codes outside `int`: a foreign code is read as a standard one.
- `C39_race_counterexample`: The race: the reply arrives, then the announcement of a change is handled, then the call stores. From then on the old listing is returned from the cache for as long as nothing else drops it, up to the whole ttl.
- `C40_error_counterexample`: A failed list call, other than by an exception, makes later calls return an empty list from the cache without asking the server.
- `C42_stream_counterexample`: C42 does not hold of event streams. Whatever the verifier, a request without any token opens an event stream of a live session, and the next message queued for that session goes to it.
- `C43_malformed_counterexample`: C43, false for headers that are not authorities. `localhost:1@evil.com` and `[localhost]evil.com` name the host evil.com to some clients and no host to others; the server takes both for this machine, in the Host and in the Origin header, whatever `evil.com` is.
- `C44_collision_counterexample`: C44: when the id of a live session is drawn again (there are 9000 ids), the request outstanding in the first session never completes and its message is never delivered, whatever happens later: responses under the id, new streams, removal of the id, `Stop`.
- `C44_race_counterexample`: C44: a request sent while its session is being removed is filed after the removal; its future never completes.
- `C45_retry_counterexample`: C45 does not hold of long delays: a delay of 2^32 milliseconds or more is cut to its low 32 bits: asked to wait for 49 days and some time, the client waits for that time only.
- `C45_split_counterexample`: C45 is false for a piece that ends inside a line: whatever the first message, and wherever the second is cut, the second message handed over is only its beginning.
- `C46_foreign_counterexample`: C46 does not hold when the server answers with the response to another request that waits: the exchange of request 1 brought the response to 2, and 1 is left waiting.
- `C46_race_counterexample`: C46 does not hold of a request that passed the check of the connection before `Close` and is filed after it: without another `Close` or a request with its id it never completes.
- `C46_request_counterexample`: C46 does not hold when the body is a request of the server either: it is handled and answered, and the request that was sent is left waiting.
- `C47_dropped_counterexample`: C47 fails: in every execution with distinct ids and a peer that sends no messages of its own that look like answers, a request that says `result` or `error` is never answered.
- `C47_error_log_counterexample`: C47 fails for notifications: one that says either word never reaches the notification handler; a log message of level `error` is an instance, whatever it reports.
- `C47_log_answers_counterexample`: C47 fails: a notification that mentions an error and an id answers the receiver's request of that id.
- `C47_own_request_counterexample`: C47 fails: a request that says either word answers the receiver's own request of the same id, with a response nobody made.
- `C47_set_level_counterexample`: C47 fails: `logging/setLevel` asking for errors only, the request of the logging feature of the protocol, is never answered and never handled: both sides connected, a handler installed, nothing left to do, and the future is open for good.
- `C48_comma_counterexample`: C48, false for an address with a comma (which a URL may contain): whatever comes before and after, the client sees the address cut at the comma.
- `C50_escape_counterexample`: C50 is false of tokens written with an escape, such as `\/`, which some servers write for every slash: the token attached to requests has the backslash in it, and so is not the token the endpoint issued.
- `C50_null_counterexample`: C50 is false of some failed fetches: a reply whose `access_token` is null replaces the token by the name of the next member, an error reply with the quoted name as a value replaces it by the description that follows, and an empty token replaces a good one by nothing. This is so whatever was held and whatever the clock says.
- `C50_stale_counterexample`: C50 is false of failed fetches: once the token has expired and the fetch of a call fails, the call returns with the expired token still held, and `headers` attaches it. For every lifetime the first reply may state and every skew there is such a history.
- `C50_zero_counterexample`: C50 is false of tokens that last for no time: a token which the endpoint says lasts 0 seconds is kept and attached for an hour.
- `C51_case_counterexample`: C51 is false of schemes with capital letters, which are the same schemes by RFC 3986 section 3.1: the port of the URL is dropped, whatever the port, the host and the path are.
- `C52_extensions_counterexample`: C52. A client of this library that announces extensions is never understood, and can never make a server show its UI resources.
- `C52_flags_counterexample`: C52. A flag that the server clears is read as set, whatever else it advertises.
- `C54_other_thread_counterexample`: C54 is false for handlers that run on another thread, as the tools of task-mode calls and handlers started with `std::async` do: they are told nothing, whatever requests other threads are in.
- `C55_bigint_counterexample`: C55 fails for integers outside 64 bits: they silently become null.
- `C55_surrogate_counterexample`: C55 fails for surrogate pairs: `"😀"` (U+1F600) is read as six bytes of CESU-8, not as the four UTF-8 bytes of the character.
- `C56_hangup_loses_data_counterexample`: C56 is false of the code: a peer that writes a complete message and closes its end before the reader's next iteration is never heard, however often the loop iterates.
- `C57_disable_counterexample`: C57. Asking for no timeout (`SetRequestTimeoutMs(0)`) makes the next `SendRequest` overflow its deadline, at every time.
- `C58_lost_wakeup_counterexample`: C58 fails. There is a schedule after which the stopping call never returns, however the threads are scheduled from then on: the flag is cleared and the notification sent between the waiting thread's test of the flag and its going to sleep.
- `C59_lowered_timeout_counterexample`: C59 fails after the timeout has been lowered: for every pair of timeouts there is an execution in which a request is still waiting although its deadline has passed and the timeout thread has had its turn, and it stays so until the deadline of the earlier request.
- `C60_truncated_counterexample`: C60 fails in the default mode: if the second request dies with an exception, the read succeeds with just the first chunk — for every text longer than a chunk.
- `C61_error_like_result_counterexample`: C61 fails for a valid result that has members named `code` and `message` (any, of any type): it is reported as failure.
- `C61_lost_response_counterexample`: C61 fails in the default mode: when no response arrives (exception or null), every typed call reports an empty success.
- `C64_truncated_counterexample`: C64. `listAllTools` can return a part of the tools as if it were all of them: an error answer on a later page ends the loop silently. Here the server is in strict mode and refuses to send the page with the tool `b`; the client, asking for pages of one entry, gets `a` alone.
- `C66_lost_task_counterexample`: C66. A tool task whose handler throws something other than a `std::exception` never ends: unless it is cancelled, whatever happens later, a request for its result is never answered.
- `C69_no_resume_counterexample`: C69, false after a closure. Once the loop has closed the transport, no keepalive is ever sent again, however often keepalive is switched on (on a new, connected transport, say), unless it is switched off first.
- `C69_stop_counterexample`: C69, false after a stop. After `Stop()` keepalive stays switched on and advertised, but a server that is started again sends none.
- `C70_replaced_counterexample`: C70, false in general. `SetCapabilities` replaces the advertisement and leaves keepalive and the rate limit in force.
- `C71_complete_counterexample`: C71 is false for `Complete`: whenever the completion handler of the server throws, the call returns an empty completion as if the handler had found nothing, in every mode.
- `C71_server_requests_counterexample`: C71 is false for `RequestRootsList`, `RequestElicitation` and `RequestCreateMessage`: an error answer gives an empty list of roots, an elicitation result with an empty action, and the error object as if it were the message.
- `C71_task_result_counterexample`: C71 is false for `GetTaskResult`: an error answer with error object `e` and a success whose result is `e` are the same to the caller when the kind of the task is not known or the client is not strict.
- `C73_escape_counterexample`: C73 is false for handlers that throw anything but a standard exception: it leaves `onRequest` and no answer is made.
- `C74_sampling_options_counterexample`: C74 is false for the other options of a sampling request: whatever maximum number of tokens, temperature, stop sequences and metadata the server asks for, the client behaves in the same way, whatever its handler and state are.
- `C76_lost_task_counterexample`: C76 is false for handlers that throw anything but a standard exception: the task never ends. Unless it is cancelled, whatever happens later, a request for its result is never answered.
- `C77_integer_progress_counterexample`: C77 is false for a server that writes its progress as an integer: the handler of a client that is not strict is told zero.
- `C77_integer_token_counterexample`: C77 is false for progress tokens that are integers: the handler is told the empty token.
- `C78_sampling_counterexample`: C78 is false for `RequestCreateMessage`: whatever the client answers is returned unchecked, in every mode.
- `C80_scopes_dropped_counterexample`: C80, false of the scopes. Publishing metadata with no required scopes after switching authentication on (its name speaks of metadata only) opens the server to every verified token: for all scopes required, a token without any of them is let in.
- `C81_other_session_counterexample`: C81: with two sessions, a message sent while the first session's request is served (it has found session 0) goes to the second.
- `C81_refused_counterexample`: C81: and once the second session is removed, messages are refused although the first is live.
- `C83_notify_counterexample`: C83 does not hold of the notification path. A request posted there runs the request handler, whatever it answers, and the client gets `{}`.
- `C84_hang_counterexample`: C84 does not hold of closing again either: with sessions and DELETE on close, the `Close` of a transport started again waits for an io thread that does not run, for ever.
- `C84_restart_counterexample`: C84 does not hold. A transport that was started, closed and started again is connected and accepts requests, but sends nothing, whatever happens: each request waits for the next `Close`. (`Close` stops the io context, and nothing restarts it.)
- `C85_quote_counterexample`: C85 does not hold of names with a quote: they are not escaped, and one scope is read as two.
- `C86_path_counterexample`: C86 is false of longer paths: for every server URL whose path has two segments or more, the well-known text is followed by the path without its last segment, and the URL of RFC 9728 is not among those probed.
- `C87_escape_counterexample`: C87 is false of escapes by code point: the `u` and the digits are taken as text.
- `C87_nested_counterexample`: C87 is false of nested names: the JSON parser of this library reads the member of the document, discovery the nested one.
- `C88_clear_counterexample`: C88 is false of schemes with capital letters: a URL whose scheme is `https` in any other letter case, whatever its host and path, is fetched in the clear, and on port 80 when it names no port. The token request, with the client secret in it, is sent this way too.
- `C88_v6_counterexample`: C88 is false of IPv6 addresses: the host is cut at the first colon of the address, for every such address, port and path.
- `C90_creator_not_told_counterexample`: C90 fails: the creator does not learn that the opener is gone. Its next request is taken by the queue, and it waits for good.
- `C90_full_queue_counterexample`: C90 fails: an answer that finds the queue full is dropped too.
- `C90_large_answer_counterexample`: C90 fails: an answer larger than the limit is dropped, and its requester, still connected, waits for good.
- `C90_race_counterexample`: C90 fails when `SendRequest` and `Close` overlap: a request that passed the check before `Close` is filed after it, and its future stays open.
- `C90_small_buffer_counterexample`: C90 fails: an opener with a smaller limit than the creator's never processes a message.
- `C92_lost_counterexample`: C92, the other way about: when the server no longer has the session of the client, every request sent to the endpoint fails with an error of the client, whatever it is, and the client keeps the session: an initialize request fails as well, so nothing but `Close` gets the client out of this.
- `C92_version_counterexample`: C92, the other way about: the client names the version `2025-11-25` in every request, whatever version the session was opened with; in a session opened with another version every request fails with an error of the client.
- `C93_unsent_counterexample`: C93, the other way about: the client sends an answer once. When the connection for it fails, nothing completes the request at the server any more, whatever the two sides do: it waits until the session is closed, then it ends with the server's own error (or somebody else answers it).
- `C94_answers_counterexample`: C94 is false of the stdio transport: what a request is answered with is what its handler makes of the failure of every request it sent itself.
- `C94_blocked_counterexample`: C94 is false of the stdio transport: while a handler waits for its request, the reader takes nothing of what the other side writes, the answer included, and answers nothing. This ends only when the future completes.
- `C94_never_answered_counterexample`: C94 is false of the stdio transport. Whatever the handlers, whatever the other side writes, and however the threads are scheduled: a handler that sends a request and waits for it is never told a response, but only that it timed out, that the transport was closed or not connected, or that the promise was broken.
- `C95_unseen_counterexample`: C95 is false of the stdio transport. A request that is not cancelled before it is sent: whatever the other side writes after it, cancellations included, and however the threads are scheduled, its handler never reads its stop token as stopped.
- `C97_env_zero_counterexample`: C97. The environment variable disagrees with the setting of the same name: there `0` is no time at all, so that a request is given up the moment it is sent.
- `C97_http_number_cut_counterexample`: C97. A time limit of 2^32 milliseconds or more is cut to its low 32 bits: asked to wait for 2^32 ms (fifty days) to connect, the transport does not wait at all.
- `C97_lines_counterexample`: C97. Settings separated by line ends, which the documentation allows ("whitespace"), are lost without a word: of two settings on two lines, the second counts for nothing, whatever it is.
- `C97_no_timeout_counterexample`: C97. The documented way to switch the limit off, `timeout_ms=0`, given last and however the rest reads, makes the first request sent overflow its deadline (C57): there is no time of the clock at which it gets a deadline.
- `C97_not_a_number_counterexample`: C97. A value which is no number is not refused: a sign turns it round modulo 2^64 and text after the digits is dropped, so that a size of `-1` is no limit at all and `10MB` is ten bytes.
- `C97_scheme_case_counterexample`: C97. The scheme is compared as it stands: any text whose last `scheme` is not exactly `https`, such as `HTTPS`, makes a transport that sends everything, a bearer token included, without TLS and without a word about it.
- `C97_semicolon_counterexample`: C97. What cannot be said: no text gives a string option a value with a `;` in it, there is no way to write one. A secret or a token that holds one is cut there, and what follows is read as a setting of its own.
- `C98_bare_v6_counterexample`: C98. An IPv6 address without brackets is taken apart at its last colon.
- `C98_open_bracket_counterexample`: C98. A text whose address cannot be read is not refused: whatever stands after an opening bracket that is not closed, the server takes every interface of the machine and port 9443.
- `C98_shm_name_counterexample`: C98. Names that differ after a `?` are one channel, and a name that is empty is the channel `mcp-shm`: programs that mean to have channels of their own meet on the same queues.
- `C98_shm_values_counterexample`: C98. A channel asked for with `create=on` is not created, and one of 2^32 messages has room for none.
