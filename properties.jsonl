{"id": "C01", "title": "JSON string contents survive the wire", "statement": "For every string (any bytes, including quotes, backslashes, control characters and bytes >= 0x80), serialising it as a JSON value and parsing the text back yields exactly the same string, and the parser stops exactly after the closing quote whatever text follows.", "quantifier": "every byte string and every continuation of the text after it", "why_tests_cant": "Escaping is per character and per position; unit tests try a handful of strings out of infinitely many, and the end-of-string position matters for every following byte.", "anchors": ["src/mcp/JSONParser.cpp:JsonParser::parseString", "src/mcp/JSONParser.cpp:serializeJSONValue"]}
{"id": "C02", "title": "JSON values survive serialise-then-parse", "statement": "For every JSON value, parsing the serialised text returns an equal value and consumes exactly that text. (As written the code fails this for object keys containing quotes, backslashes or control characters, and for doubles that six decimals do not represent.)", "quantifier": "every JSON value of any size and nesting depth, and every continuation of the text", "why_tests_cant": "Values nest without bound; tests check a few shapes at fixed depth.", "anchors": ["src/mcp/JSONParser.cpp:serializeJSONValue", "src/mcp/JSONParser.cpp:JsonParser::parseValue"]}
{"id": "C03", "title": "The JSON parser is total and only ever moves forward", "statement": "On every input text the parser terminates with either a value or a parse exception, and the unread remainder is always a suffix of the input (it never re-reads or invents bytes, never reads past the end).", "quantifier": "every byte string, well-formed or not", "why_tests_cant": "Termination and absence of over-reads on arbitrary hostile text are universal statements; fuzzing samples them.", "anchors": ["src/mcp/JSONParser.cpp:JsonParser"]}
{"id": "C04", "title": "Requests survive Serialize / Deserialize", "statement": "For every request whose id and method contain no double quote, Deserialize(Serialize(r)) reports success and yields the same id (same kind: string, integer or null), method and params. (False when the id or method contains a double quote.)", "quantifier": "every id (string, 64-bit integer, null), method and params value", "why_tests_cant": "Deserialize searches for key text anywhere in the message, so correctness depends on the content of every field for every params value.", "anchors": ["src/mcp/JSONParser.cpp:JSONRPCRequest::Serialize", "src/mcp/JSONParser.cpp:JSONRPCRequest::Deserialize"]}
{"id": "C05", "title": "Responses survive Serialize / Deserialize", "statement": "For every response, Deserialize(Serialize(r)) yields the same id, the same result and the same error; in particular a successful result stays successful. (False when an object inside the result has a key named error, or an object inside the error has a key named result.)", "quantifier": "every response: id, optional result, optional error, of any size", "why_tests_cant": "Only a universally quantified statement covers results whose nested keys collide with envelope keys.", "anchors": ["src/mcp/JSONParser.cpp:JSONRPCResponse::Serialize", "src/mcp/JSONParser.cpp:JSONRPCResponse::Deserialize"]}
{"id": "C06", "title": "Notifications survive Serialize / Deserialize", "statement": "For every notification whose method contains no double quote and is non-empty, Deserialize(Serialize(n)) reports success and yields the same method and params.", "quantifier": "every method and params value", "why_tests_cant": "Same as for requests: infinitely many params values.", "anchors": ["src/mcp/JSONParser.cpp:JSONRPCNotification::Serialize", "src/mcp/JSONParser.cpp:JSONRPCNotification::Deserialize"]}
{"id": "C07", "title": "Deserialising a peer's request depends only on its JSON meaning", "statement": "Two request texts with the same JSON meaning (different member order or whitespace) deserialise to the same request. (False of the code: the first textual occurrence of the key wins, even when nested inside params, and whitespace before the colon hides the key.)", "quantifier": "every pair of request texts that denote the same JSON object", "why_tests_cant": "Member order and whitespace of foreign peers cannot be enumerated by tests.", "anchors": ["src/mcp/JSONParser.cpp:JSONRPCRequest::Deserialize"]}
{"id": "C08", "title": "A framed message is decoded exactly", "statement": "For every payload not larger than the configured maximum, decoding its frame followed by any further bytes returns exactly that payload and consumes exactly the frame.", "quantifier": "every payload, every maximum, every following byte string", "why_tests_cant": "The header length is decimal text derived from the size; boundary sizes and payloads that themselves contain header-like bytes are unbounded.", "anchors": ["src/mcp/ContentLengthFramer.cpp:encode", "src/mcp/ContentLengthFramer.cpp:tryDecodeEx"]}
{"id": "C09", "title": "Frame reading is independent of how bytes are chunked", "statement": "For every sequence of payloads and every way of splitting the concatenated frames into read chunks, the reader delivers exactly those payloads, in order, once each, and keeps nothing buffered at the end; more generally two chunkings of the same byte stream deliver the same messages.", "quantifier": "every list of payloads and every split of the byte stream, including malformed streams", "why_tests_cant": "The number of splits is exponential; tests try one or two split points.", "anchors": ["src/mcp/StdioTransport.cpp:drainFrames", "src/mcp/ContentLengthFramer.cpp:tryDecodeEx"]}
{"id": "C10", "title": "Oversized frames are never delivered", "statement": "No delivered message is longer than the configured maximum content length, and a frame that declares a larger body disconnects the transport instead of being delivered, whatever follows.", "quantifier": "every byte stream and every configured maximum", "why_tests_cant": "A bound over all streams; tests try single oversized headers.", "anchors": ["src/mcp/StdioTransport.cpp:drainFrames", "src/mcp/ContentLengthFramer.cpp:tryDecodeEx"]}
{"id": "C11", "title": "Malformed headers do not wedge the reader", "statement": "After a complete header block without a usable Content-Length the reader discards exactly that header block and delivers a following well-formed frame; the drain loop always terminates.", "quantifier": "every malformed header block and every following stream", "why_tests_cant": "Resynchronisation must hold for all malformed headers.", "anchors": ["src/mcp/StdioTransport.cpp:drainFrames", "src/mcp/ContentLengthFramer.cpp:tryDecodeEx"]}
{"id": "C12", "title": "The stdio write queue is bounded and ordered", "statement": "Under every interleaving of sends and writer progress, the queued byte count equals the bytes still owed and never exceeds the configured bound; the bytes that reach the pipe are always a prefix of the concatenation of the accepted frames in send order; a send that would exceed the bound is refused, reported and disconnects the transport.", "quantifier": "every sequence of sends, partial writes, timeouts and limit changes", "why_tests_cant": "Interleavings of producers and partial writes are unbounded.", "anchors": ["src/mcp/StdioTransport.cpp:enqueueFrame", "src/mcp/StdioTransport.cpp:dequeueNextFrame", "src/mcp/StdioTransport.cpp:accountWritten"]}
{"id": "C13", "title": "Stdio requests are answered at most once and never by someone else's response", "statement": "In every history of sends, incoming responses, timeouts and Close, each request future completes at most once; if it completes with a peer response that response carries the request's id; after Close every request sent before it has completed. (Fails when two outstanding requests share an id text.)", "quantifier": "every history of SendRequest, incoming responses, timeout sweeps and Close", "why_tests_cant": "Histories and their interleavings are unbounded.", "anchors": ["src/mcp/StdioTransport.cpp:SendRequest", "src/mcp/StdioTransport.cpp:handleResponse", "src/mcp/StdioTransport.cpp:startTimeouts", "src/mcp/StdioTransport.cpp:Close"]}
{"id": "C14", "title": "Every routed request gets exactly one response with its own id", "statement": "When a request handler is installed, routing a request message produces exactly one response text, whose id is the request's id, whether the handler returns a response (with any id), returns nothing or throws; a response message is only handed to the response resolver and produces no output; a notification produces no output.", "quantifier": "every message text and every handler behaviour", "why_tests_cant": "Handlers are arbitrary functions and messages arbitrary texts.", "anchors": ["src/mcp/JsonRpcMessageRouter.cpp:route"]}
{"id": "C15", "title": "Message classification looks only at the top level", "statement": "Messages produced by the library's own serialisers are classified as what they are: requests as Request, notifications as Notification, responses as Response, no matter which keys or texts occur inside params or result.", "quantifier": "every request, notification and response the library can serialise (ids and methods without quotes or backslashes)", "why_tests_cant": "Nested content can imitate envelope keys in infinitely many ways.", "anchors": ["src/mcp/JsonRpcMessageRouter.cpp:hasTopLevelKey", "src/mcp/JsonRpcMessageRouter.cpp:classify"]}
{"id": "C16", "title": "In-memory transport delivers in order, once, with matching answers", "statement": "Between two paired in-memory endpoints every message sent is processed by the peer in send order, exactly once, and each request future completes at most once, with the response to that request or a transport error.", "quantifier": "every interleaving of sends, deliveries and closes on both sides", "why_tests_cant": "Schedules of two endpoints are unbounded.", "anchors": ["src/mcp/InMemoryTransport.cpp:startProcessing", "src/mcp/InMemoryTransport.cpp:SendRequest", "src/mcp/InMemoryTransport.cpp:Close"]}
{"id": "C17", "title": "Task ids are unique", "statement": "No two tasks created by one server ever have the same task id, and a task id never denotes a different task later.", "quantifier": "every sequence of task operations", "why_tests_cant": "Uniqueness over unbounded histories.", "anchors": ["src/mcp/TaskSupport.h:TaskStore::CreateTask"]}
{"id": "C18", "title": "A finished task never changes", "statement": "Once a task reached completed, failed or cancelled, no later operation (completion, failure, cancellation) changes its status or its result; the first terminal transition wins and cancelling a finished task is refused.", "quantifier": "every sequence of task operations and every race between completion and cancellation", "why_tests_cant": "All orders of racing terminal transitions, over unbounded histories.", "anchors": ["src/mcp/TaskSupport.h:TaskStore::SetTerminal", "src/mcp/TaskSupport.h:TaskStore::CancelTask", "src/mcp/TaskSupport.h:TaskStore::CompleteTask"]}
{"id": "C19", "title": "Listing tasks page by page shows every task exactly once", "statement": "Following nextCursor from the start with any positive page size enumerates exactly the tasks of the store in creation order, without omission or repetition, and terminates.", "quantifier": "every store content and every page size", "why_tests_cant": "Boundary arithmetic must hold for every size/page combination.", "anchors": ["src/mcp/TaskSupport.h:TaskStore::ListTasks"]}
{"id": "C20", "title": "Task objects survive serialisation", "statement": "Serialising a task and parsing it back yields the same task, for every status, ttl and poll interval.", "quantifier": "every task value", "why_tests_cant": "All field combinations including optional ones.", "anchors": ["src/mcp/TaskSupport.h:SerializeTask", "src/mcp/TaskSupport.h:ParseTask"]}
{"id": "C21", "title": "A template match is a real instantiation", "statement": "If a resource template with pairwise distinct variable names matches a URI, then substituting the reported variable values into the template gives back exactly that URI. (False for repeated variable names.)", "quantifier": "every template text and every URI", "why_tests_cant": "Both are arbitrary strings.", "anchors": ["src/mcp/Server.cpp:matchResourceTemplate"]}
{"id": "C22", "title": "Template matching misses nothing", "statement": "If some assignment of values to the variables of a well-formed template turns it into the URI, the template matches that URI.", "quantifier": "every well-formed template and every assignment", "why_tests_cant": "Completeness of a backtracking search is a universal claim.", "anchors": ["src/mcp/Server.cpp:matchResourceTemplate"]}
{"id": "C23", "title": "Resource reads resolve to at most one handler", "statement": "A resources/read for a URI with a directly registered handler always uses that handler; otherwise it uses a template handler only if exactly one handler-bearing template matches; two or more is reported as ambiguous and none as not found.", "quantifier": "every registry content and every URI", "why_tests_cant": "Registries and URIs are unbounded.", "anchors": ["src/mcp/Server.cpp:resolveResourceRead"]}
{"id": "C24", "title": "A ranged read returns exactly the requested slice", "statement": "For every text resource split in any way into content items, a ranged read returns the bytes [offset, offset+min(length, maxChunkBytes)) of the concatenated text, cut at the end of the text; an offset at or beyond the end gives empty contents; negative offsets and non-positive lengths are refused; non-text content is refused.", "quantifier": "every resource content, offset, length and clamp", "why_tests_cant": "All combinations of item boundaries and ranges.", "anchors": ["src/mcp/Server.cpp:buildReadResourceResultJson", "src/mcp/Server.cpp:handleResourcesRead"]}
{"id": "C25", "title": "Chunked reading reassembles the whole resource", "statement": "Reading a text resource with readAllResourceInChunks yields exactly the full text for every positive chunk size and whatever clamp the server applies, and it terminates.", "quantifier": "every text, chunk size and server clamp", "why_tests_cant": "An unbounded client/server loop; tests run single sizes.", "anchors": ["include/mcp/typed/ClientTyped.h:doReadAllResourceInChunks", "src/mcp/Server.cpp:buildReadResourceResultJson"]}
{"id": "C26", "title": "Cancelling one request never cancels another", "statement": "A cancellation for one request id affects only requests with that id, and every in-flight request whose id is cancelled while it runs observes the cancellation. (A cancellation for an id that is not running is remembered and hits a later request that reuses the id.)", "quantifier": "every interleaving of request starts, ends and cancellations", "why_tests_cant": "Interleavings are unbounded.", "anchors": ["src/mcp/Server.cpp:registerCancelToken", "src/mcp/Server.cpp:cancelById", "src/mcp/Server.cpp:unregisterCancelToken", "src/mcp/Server.cpp:registerStopSource"]}
{"id": "C27", "title": "Paged listings enumerate the registry exactly once", "statement": "For tools, resources, resource templates and prompts, following nextCursor from the start with any positive limit returns every (visible) entry exactly once in a fixed order and then stops, as long as the registry is not modified in between.", "quantifier": "every registry content, every limit", "why_tests_cant": "Boundary arithmetic over all sizes.", "anchors": ["src/mcp/Server.cpp:parsePagingParams", "src/mcp/Server.cpp:computeNextCursor", "src/mcp/Server.cpp:handleToolsList", "src/mcp/Server.cpp:handleResourcesList", "src/mcp/Server.cpp:handleResourceTemplatesList", "src/mcp/Server.cpp:handlePromptsList"]}
{"id": "C28", "title": "UI resources stay hidden from clients without the UI extension", "statement": "A client that did not advertise the UI extension never sees a ui:// resource in resources/list on any page, and a client that did sees all resources.", "quantifier": "every registry, client capability set and page", "why_tests_cant": "Universal over registry contents and pages.", "anchors": ["src/mcp/Server.cpp:collectVisibleResources", "src/mcp/Server.cpp:handleResourcesList"]}
{"id": "C29", "title": "Resource update notifications follow subscriptions", "statement": "After any history of subscribe and unsubscribe requests, an update of a URI is announced exactly when the client is subscribed to it. (As written, with an empty subscription set every update is announced, and overlapping requests can switch the filter off.)", "quantifier": "every history of subscribe/unsubscribe/update", "why_tests_cant": "Histories are unbounded.", "anchors": ["src/mcp/Server.cpp:handleSubscribe", "src/mcp/Server.cpp:handleUnsubscribe", "src/mcp/Server.cpp:coNotifyResourceUpdated"]}
{"id": "C30", "title": "Log messages respect the client's minimum level", "statement": "A log message is sent to the client only if its severity is at least the minimum the client chose through logging/setLevel, and is never dropped by the level filter otherwise. (False for the severities notice, critical, alert and emergency.)", "quantifier": "every history of level changes and log calls, every level string", "why_tests_cant": "All histories and all strings.", "anchors": ["src/mcp/Server.cpp:coLogToClient", "src/mcp/Server.cpp:handleSetLogLevel"]}
{"id": "C31", "title": "Log rate limiting", "statement": "With a rate limit of N per second in force when a message is logged, the message is sent exactly if fewer than N messages were sent in the current limiter window; hence at most N are sent in one window, at most 2N in any second, and below the limit none is suppressed. A window lasts until the first message a second or more after its start.", "quantifier": "every timed history of log calls and limit changes", "why_tests_cant": "Timed histories are unbounded.", "anchors": ["src/mcp/Server.cpp:coLogToClient", "src/mcp/Server.cpp:SetLoggingRateLimitPerSecond"]}
{"id": "C32", "title": "Keepalive closes after exactly the configured number of consecutive failures", "statement": "The transport is closed by keepalive if and only if the number of consecutive failed keepalive sends reaches the threshold; any successful send resets the count.", "quantifier": "every sequence of keepalive outcomes and thresholds", "why_tests_cant": "Sequences are unbounded.", "anchors": ["src/mcp/Server.cpp:SetKeepaliveIntervalMs", "src/mcp/Server.cpp:SetKeepaliveFailureThreshold"]}
{"id": "C33", "title": "Registering and unregistering behave like a map", "statement": "After any sequence of register/unregister calls, a tool (resource, prompt, template) is listed and callable exactly if its last operation was a registration, it is listed once, and the handler and metadata are those of the last registration. (RegisterTool with a name and no metadata keeps the metadata listed before, if there are any.)", "quantifier": "every sequence of registrations", "why_tests_cant": "Unbounded histories, several redundant containers must stay in sync.", "anchors": ["src/mcp/Server.cpp:RegisterTool", "src/mcp/Server.cpp:UnregisterTool", "src/mcp/Server.cpp:RegisterResource", "src/mcp/Server.cpp:UnregisterResource", "src/mcp/Server.cpp:RegisterPrompt", "src/mcp/Server.cpp:RegisterResourceTemplate"]}
{"id": "C34", "title": "Every server request is answered under its own id", "statement": "Dispatching any request returns a response carrying the request's id; an unknown method gives MethodNotFound; initialize always answers with the protocol version of the library.", "quantifier": "every request and every handler behaviour", "why_tests_cant": "Arbitrary handlers and methods.", "anchors": ["src/mcp/Server.cpp:dispatchRequest"]}
{"id": "C35", "title": "Task-mode tool calls follow the tool's declaration", "statement": "A tool declared as task-required is never run synchronously, a tool that forbids tasks is never run as a task, and optional tools run in the mode the caller asked for.", "quantifier": "every tool declaration and request", "why_tests_cant": "Decision logic over all combinations of optional metadata.", "anchors": ["src/mcp/Server.cpp:handleToolsCall", "src/mcp/TaskSupport.h:ToolTaskSupportMode"]}
{"id": "C36", "title": "Error objects keep their meaning", "statement": "An error built from code, message and data parses back to the same code, message and data, its category is determined by its code alone, and every code maps to exactly one category. (Codes outside 32 bits are truncated when parsed.)", "quantifier": "every code, message and data value", "why_tests_cant": "All integers and values.", "anchors": ["include/mcp/errors/Errors.h"]}
{"id": "C37", "title": "Icons survive serialisation", "statement": "Serialising an icon and parsing it back yields the same icon exactly when its theme is absent or one of the supported themes; unsupported icons are rejected as a whole.", "quantifier": "every icon and icon list", "why_tests_cant": "All field combinations.", "anchors": ["src/mcp/MetadataSupport.h"]}
{"id": "C38", "title": "Cached listings are never older than the TTL", "statement": "A list call is answered from the client cache exactly when caching is enabled, an earlier call of the same kind stored its answer less than the TTL (plus the truncated millisecond) ago, and since then caching was not switched off, no change of that listing was announced and no other call of that kind returned; the answer is what that call returned. Every other list call sends a request and returns what its own reply says.", "quantifier": "every timed history of list calls, TTL changes and notifications", "why_tests_cant": "Timed histories are unbounded.", "anchors": ["src/mcp/Client.cpp:coListTools", "src/mcp/Client.cpp:SetListingsCacheTtlMs"]}
{"id": "C39", "title": "list_changed invalidates the cache", "statement": "After a list_changed notification has been handled, the next list call of that kind is not answered from data fetched before the notification. (False when the notification is handled between the server's reply and the store into the cache.)", "quantifier": "every interleaving of list calls and notifications", "why_tests_cant": "Interleavings are unbounded.", "anchors": ["src/mcp/Client.cpp:invalidateCachesForListChanged", "src/mcp/Client.cpp:coListTools"]}
{"id": "C40", "title": "A failed listing is not cached as an empty list", "statement": "A list call that failed with an error never makes later calls return an empty list from the cache. (False of the code.)", "quantifier": "every history of list calls and server replies", "why_tests_cant": "Requires considering error replies in all histories.", "anchors": ["src/mcp/Client.cpp:coListTools"]}
{"id": "C41", "title": "Strict validation accepts exactly the documented shapes", "statement": "In Strict mode a tools/call, resources/read or list result is accepted exactly if it has the documented shape; content built with the typed builders is always accepted.", "quantifier": "every JSON value", "why_tests_cant": "All JSON values.", "anchors": ["include/mcp/validation/Validators.h", "include/mcp/typed/Content.h"]}
{"id": "C42", "title": "Bearer authentication guards every request", "statement": "When bearer authentication is enabled, a handler runs only for a request that carries a token accepted by the verifier, with all required scopes, unexpired; failures give 401 or 403 as documented. (The event stream GET is not guarded.)", "quantifier": "every request, verifier, scope set and clock value", "why_tests_cant": "Arbitrary headers and verifiers.", "anchors": ["src/mcp/auth/ServerAuth.cpp:CheckBearerAuth", "src/mcp/HTTPServer.cpp:makeResponse", "src/mcp/HTTPServer.cpp:session_plain"]}
{"id": "C43", "title": "A loopback-bound server rejects foreign Host and Origin headers", "statement": "When the HTTP server is bound to a loopback address, a request whose Host or Origin names a non-local host is rejected before any handler runs.", "quantifier": "every Host and Origin header text", "why_tests_cant": "Header texts are arbitrary strings; attackers choose them.", "anchors": ["src/mcp/HTTPServer.cpp:validateLocalHeaders", "src/mcp/HTTPServer.cpp:extractAuthorityHost", "src/mcp/HTTPServer.cpp:isLocalAuthorityHost"]}
{"id": "C44", "title": "HTTP sessions are isolated", "statement": "Messages queued for one session are delivered, in order and once each, only to streams of that session, and removing a session fails exactly its own outstanding requests. (Fails when a generated session id collides with a live session.)", "quantifier": "every history of session creation, queueing, streaming, responses and removal", "why_tests_cant": "Histories over many sessions are unbounded.", "anchors": ["src/mcp/HTTPServer.cpp:createSession", "src/mcp/HTTPServer.cpp:queueOutbound", "src/mcp/HTTPServer.cpp:removeSession", "src/mcp/HTTPServer.cpp:resolvePendingResponse"]}
{"id": "C45", "title": "Server-sent events carry messages intact", "statement": "Every sequence of serialised messages written as server-sent events is read back by the client as the same sequence, regardless of how the stream is split into reads. (False of the code for splits inside a line.)", "quantifier": "every message sequence and every split of the stream", "why_tests_cant": "Exponentially many splits.", "anchors": ["src/mcp/HTTPTransport.cpp:parseEventStream", "src/mcp/HTTPServer.cpp:session_plain"]}
{"id": "C46", "title": "HTTP client requests always complete", "statement": "Each HTTP client request future completes at most once, and once its HTTP exchange has finished (or the transport is closed) it has completed. (False when the body is another request's response or itself a request.)", "quantifier": "every history of sends, HTTP outcomes and Close", "why_tests_cant": "Histories and response bodies are arbitrary.", "anchors": ["src/mcp/HTTPTransport.cpp:SendRequest", "src/mcp/HTTPTransport.cpp:handleIncomingJson", "src/mcp/HTTPTransport.cpp:deliverResponse"]}
{"id": "C47", "title": "Shared-memory transport answers every request", "statement": "A request received over shared memory with a handler installed is answered exactly once under its own id. (False when the params contain a member or text named result or error in quotes.)", "quantifier": "every request", "why_tests_cant": "Arbitrary params.", "anchors": ["src/mcp/SharedMemoryTransport.cpp:processMessage"]}
{"id": "C48", "title": "Authentication challenges are understood by the client", "statement": "The WWW-Authenticate header emitted by the server parses on the client to scheme bearer with exactly the advertised parameters; in general a challenge with quoted parameters parses back to them, and the parser terminates on every header.", "quantifier": "every parameter list and every header text", "why_tests_cant": "Header texts are arbitrary.", "anchors": ["src/mcp/auth/WwwAuthenticate.cpp:parseWwwAuthenticate", "src/mcp/HTTPServer.cpp:enforceAuthAndScope"]}
{"id": "C49", "title": "Form encoding is unambiguous", "statement": "The token request body decodes (by standard form decoding) to exactly the configured client id, secret and scope, whatever characters they contain.", "quantifier": "every credential string", "why_tests_cant": "Arbitrary bytes.", "anchors": ["src/mcp/auth/OAuth2ClientCredentialsAuth.cpp:urlEncodeForm"]}
{"id": "C50", "title": "OAuth tokens are refreshed before they expire", "statement": "After ensureReady the token attached to requests is either one whose expiry is more than the skew away or the result of a fetch made during the call; a failed fetch never replaces a token.", "quantifier": "every timed history of ensureReady calls and token endpoint replies", "why_tests_cant": "Timed histories.", "anchors": ["src/mcp/auth/OAuth2ClientCredentialsAuth.cpp:ensureReady"]}
{"id": "C51", "title": "Metadata discovery probes the well-known URLs of the same origin", "statement": "Every discovery URL built from a server or issuer URL has the same scheme, host and port as that URL.", "quantifier": "every URL text of the form scheme://host[:port][/path]", "why_tests_cant": "Arbitrary URLs.", "anchors": ["src/mcp/auth/OAuthDiscovery.cpp:buildWellKnownResourceMetadataUrls", "src/mcp/auth/OAuthDiscovery.cpp:buildAuthorizationServerMetadataUrls"]}
{"id": "C52", "title": "Capabilities survive the initialize handshake", "statement": "What a client serialises as its capabilities is what the server parses, and what the server advertises is what the client parses. (The client drops extensions; absent flags are read as set.)", "quantifier": "every capability value", "why_tests_cant": "All combinations of optional fields.", "anchors": ["src/mcp/Client.cpp:serializeClientCapabilities", "src/mcp/Server.cpp:parseClientCapabilities", "src/mcp/Server.cpp:serializeServerCapabilities", "src/mcp/Client.cpp:parseServerCapabilities"]}
{"id": "C53", "title": "List-all helpers collect every page", "statement": "typed::listAll* returns the concatenation of all pages the server serves, in order, for any server that pages consistently.", "quantifier": "every registry content and page size", "why_tests_cant": "Unbounded client/server loop.", "anchors": ["include/mcp/typed/ClientTyped.h:listAllTools"]}
{"id": "C54", "title": "Request context is scoped", "statement": "While a handler runs on the thread of its dispatch, the request id, progress token and token information it can query are those of its own request; after nested dispatches return or throw, the outer context is restored; nothing is read after its end of life. (False for handlers that run on another thread, as the tools of task-mode calls do: they are told nothing.)", "quantifier": "every nesting of dispatches on every number of threads", "why_tests_cant": "Arbitrary nesting depth.", "anchors": ["src/mcp/Server.cpp:RequestContextScope", "src/mcp/auth/ServerAuth.cpp:TokenInfoScope"]}
{"id": "C55", "title": "The parser reads every valid JSON text as its meaning", "statement": "For every JSON text valid under RFC 8259 (any whitespace, any escape form, any nesting), surrounded by any whitespace, the parser returns the value the text denotes. (False of the code for \\u escapes forming a surrogate pair and for integers outside 64 bits.)", "quantifier": "every RFC 8259 text of any size and depth", "why_tests_cant": "the set of valid texts is infinite: every whitespace placement, escape spelling and nesting must be read correctly", "anchors": ["src/mcp/JSONParser.cpp: JsonParser::parseValue, parseString, parseNumber, parseArray, parseObject"]}
{"id": "C56", "title": "What the peer wrote before closing is delivered", "statement": "Over stdio, every complete message the peer wrote before closing its end is delivered to the handlers. (False of the code on Linux: when the hang-up is noticed before the last bytes are read, those bytes are never read.)", "quantifier": "every history of peer writes, peer close and read-loop iterations", "why_tests_cant": "It depends on the timing of the peer's close relative to the poll loop; a test observes only the interleavings the scheduler happens to produce.", "anchors": ["/repo/src/mcp/StdioTransport.cpp:readLoopLinux", "/repo/src/mcp/StdioTransport.cpp:drainFrames"]}
{"id": "C57", "title": "Request deadlines mean what was configured", "statement": "A request sent with a configured timeout T gets the deadline now + T, and a configured timeout of 0 disables timing out. (The second half is false of the code: the deadline computation overflows.)", "quantifier": "every timeout value and every clock reading", "why_tests_cant": "The overflow is undefined behaviour whose visible effect differs between builds; a test can only sample clock readings.", "anchors": ["/repo/src/mcp/StdioTransport.cpp:StdioTransport::SetRequestTimeoutMs", "/repo/src/mcp/StdioTransport.cpp:StdioTransport::SendRequest"]}
{"id": "C58", "title": "Stopping a transport returns", "statement": "StdioTransport::Close and the destruction of an in-memory transport return: the background thread they wait for is always woken and finishes.", "quantifier": "every interleaving of the stopping call with the background thread's test-then-sleep", "why_tests_cant": "The failing schedule is a window of a few instructions that a test almost never hits.", "anchors": ["src/mcp/StdioTransport.cpp:Close", "src/mcp/StdioTransport.cpp:startTimeouts", "src/mcp/InMemoryTransport.cpp:~Impl"]}
{"id": "C59", "title": "Request timeouts fire on time", "statement": "Whenever the timeout thread has had its turn, no request whose deadline has passed is still waiting.", "quantifier": "every interleaving of requests, answers, clock advances, timeout changes and turns of the timeout thread", "why_tests_cant": "Depends on the order of deadlines and of timeout changes over unboundedly many requests.", "anchors": ["src/mcp/StdioTransport.cpp:startTimeouts", "src/mcp/StdioTransport.cpp:SetRequestTimeoutMs"]}
{"id": "C60", "title": "A chunked read never silently truncates", "statement": "If some request of readAllResourceInChunks fails (exception, null response or error response), the call does not return a shortened resource as a success. (False in the default mode when the transport future throws; true in Strict mode.)", "quantifier": "every text, chunk size, clamp and pattern of failing requests", "why_tests_cant": "Needs every failure point in an unbounded request sequence.", "anchors": ["include/mcp/typed/ClientTyped.h:doReadAllResourceInChunks", "src/mcp/Client.cpp:coReadResource"]}
{"id": "C61", "title": "Typed calls report success exactly when the server did", "statement": "typed::callTool, readResource and getPrompt return a result exactly when the server sent a successful response and throw otherwise. (False in the default mode when no response arrives: an empty success is returned; false for results with members named code and message.)", "quantifier": "every outcome of the transport future and every result value", "why_tests_cant": "All response values and all failure modes.", "anchors": ["include/mcp/typed/ClientTyped.h:callTool", "include/mcp/typed/ClientTyped.h:isErrorObject", "src/mcp/Client.cpp:coCallTool"]}
{"id": "C62", "title": "Listed items arrive as registered", "statement": "A tool, resource, resource template or prompt written into a listing by the server is read back by the client with every field equal to the registered one, provided its icons use documented themes; otherwise only the icons are lost (default validation).", "quantifier": "every item with every combination of optional fields and nested JSON", "why_tests_cant": "All combinations of nine optional fields with arbitrary JSON values.", "anchors": ["src/mcp/Server.cpp:makeToolObj", "src/mcp/Server.cpp:makeResourceObj", "src/mcp/Server.cpp:makeResourceTemplateObj", "src/mcp/Server.cpp:makePromptObj", "src/mcp/Client.cpp:PopulateToolFromListItem"]}
{"id": "C63", "title": "Registry changes are announced", "statement": "Every registration or unregistration made while the transport is connected hands exactly one list_changed notification of the right kind to the transport, in the order of the changes; none is sent while disconnected.", "quantifier": "every sequence of registrations and every connection state at each of them", "why_tests_cant": "Sequences of calls of twelve kinds of unbounded length.", "anchors": ["src/mcp/Server.cpp:RegisterTool", "src/mcp/Server.cpp:UnregisterTool", "src/mcp/Server.cpp:RegisterResource", "src/mcp/Server.cpp:RegisterPrompt", "src/mcp/Server.cpp:RegisterResourceTemplate"]}
{"id": "C64", "title": "List-all is complete or fails", "statement": "typed::listAll* returns all entries or raises an exception; it never returns a part of the entries as if they were all. (False: an error answer on a later page ends the loop silently.)", "quantifier": "every server behaviour and page size", "why_tests_cant": "Errors can hit any page of any number of pages.", "anchors": ["include/mcp/typed/ClientTyped.h:listAllTools", "src/mcp/Client.cpp:coListToolsPaged"]}
{"id": "C65", "title": "A task delivers what the synchronous call would have returned", "statement": "When the worker of a task-mode tool call ends and the task was not cancelled before, tasks/result gives, at any later time and whatever happened in between, the result (or the error code and message) that a synchronous call would have given, with the related-task metadata added and nothing else changed.", "quantifier": "every execution of the server before and after, every tool outcome, every result value", "why_tests_cant": "All executions and all result values; the outcome must survive every later interleaving.", "anchors": ["src/mcp/Server.cpp:handleToolsCall", "src/mcp/Server.cpp:dispatchRequest", "src/mcp/TaskSupport.h:AttachRelatedTaskMetaToResult"]}
{"id": "C66", "title": "Every tool task ends when its handler does", "statement": "Every task that has no outcome has exactly one worker at work on it, and the end of the handler gives the task an outcome. (False for handlers that throw something other than std::exception: the task stays in status working and tasks/result waits for ever, unless the task is cancelled.)", "quantifier": "every execution of the server, every handler outcome", "why_tests_cant": "Needs an invariant over all executions; the failure is an absence of progress in all continuations.", "anchors": ["src/mcp/Server.cpp:handleToolsCall", "src/mcp/TaskSupport.h:WaitForTerminalPayload"]}
{"id": "C67", "title": "A strict server never sends a result of the wrong shape", "statement": "In strict validation mode every result sent for a list, read, get, call, completion, sampling or task method has the documented shape, whatever handlers return and whatever was registered.", "quantifier": "every execution, every handler outcome, every request", "why_tests_cant": "All handler outputs and all registered metadata.", "anchors": ["src/mcp/Server.cpp:dispatchRequest", "include/mcp/validation/Validators.h"]}
{"id": "C69", "title": "Keepalive keeps going while it is switched on", "statement": "After SetKeepaliveIntervalMs with a positive interval, and until it is switched off, the server sends keepalives whenever the transport is connected. (False after keepalive has closed the transport, and after Stop.)", "quantifier": "every history of settings, stops, wake-ups and send outcomes", "why_tests_cant": "Histories are unbounded, and the claim concerns what never happens again.", "anchors": ["src/mcp/Server.cpp:SetKeepaliveIntervalMs", "src/mcp/Server.cpp:coStop"]}
{"id": "C70", "title": "Advertised settings are the ones in force", "statement": "What initialize advertises about keepalive, log rate limit and chunk size is what the server applies, after any history of settings. (False after SetCapabilities.)", "quantifier": "every history of settings", "why_tests_cant": "Histories are unbounded.", "anchors": ["src/mcp/Server.cpp:SetKeepaliveIntervalMs", "src/mcp/Server.cpp:SetKeepaliveFailureThreshold", "src/mcp/Server.cpp:SetLoggingRateLimitPerSecond", "src/mcp/Server.cpp:SetCapabilities", "src/mcp/Server.cpp:SetResourceReadChunkingMaxBytes"]}
{"id": "C68", "title": "A call hands over the arguments and brings back the answer", "statement": "Given a transport that hands over requests and responses unchanged: the handler of the server gets exactly the argument passed to Complete, CallTool, GetPrompt, ReadResource (direct or by template) or a sampling request, and the caller gets exactly what the handler returned, in strict mode too when the value has the documented shape.", "quantifier": "every server state, handler, argument and returned value", "why_tests_cant": "Handlers, arguments and returned values are unbounded.", "anchors": ["src/mcp/Client.cpp:coComplete", "src/mcp/Client.cpp:coCallTool", "src/mcp/typed/ClientTyped.h:callTool", "src/mcp/Server.cpp:handleToolsCall", "src/mcp/Server.cpp:handleResourcesRead", "src/mcp/Server.cpp:handlePromptsGet"]}
{"id": "C71", "title": "A call does not report success when the other side reported failure", "statement": "A client call returns a value only when the server answered with a result and no error, and likewise for the requests of the server to the client; on an error answer the exception carries the message of the other side. (False for Complete, which returns an empty completion, GetTaskResult, which returns the error object, RequestRootsList and RequestElicitation, which return empty values, and RequestCreateMessage, which returns the error object.)", "quantifier": "every answer, strict or not", "why_tests_cant": "Answers are unbounded, and the claim concerns every way to fail.", "anchors": ["src/mcp/Client.cpp:coComplete", "src/mcp/Client.cpp:coGetTaskResult", "src/mcp/Client.cpp:coPing", "src/mcp/Client.cpp:coGetTask", "src/mcp/Server.cpp:coRequestRootsList", "src/mcp/Server.cpp:coRequestElicitation", "src/mcp/Server.cpp:coRequestCreateMessage", "src/mcp/Server.cpp:coRequestCreateMessageTask", "src/mcp/Server.cpp:coRequestElicitationTask"]}
{"id": "C72", "title": "Task calls show the task the server has", "statement": "GetTask returns the stored task or throws Unknown task; CallToolTask returns a task the server stores as working with the given ttl and queues a worker with the arguments; CancelTask returns and stores the cancelled task; ListTasks returns every task once, in creation order, as it is now.", "quantifier": "every server history, id, ttl and argument", "why_tests_cant": "Histories are unbounded.", "anchors": ["src/mcp/Client.cpp:coGetTask", "src/mcp/Client.cpp:coCallToolTask", "src/mcp/Client.cpp:coCancelTask", "src/mcp/Client.cpp:coListTasksPaged", "src/mcp/Server.cpp:dispatchRequest"]}
{"id": "C73", "title": "Every request to the client is answered under its own id", "statement": "Every request of the server is answered with the id of the request and either a result or an error (a request for a task's result once the task has ended); unknown methods with MethodNotFound. (False for handlers that throw something other than std::exception.)", "quantifier": "every request, handler and client state", "why_tests_cant": "Requests, handlers and states are unbounded.", "anchors": ["src/mcp/Client.cpp:onRequest"]}
{"id": "C74", "title": "What the server asks reaches the client's handler and its answer comes back", "statement": "Given a transport that hands over requests and responses unchanged: RequestRootsList returns exactly the roots of the handler that have a URI; the elicitation handler gets exactly the request and its result is returned; the sampling handler gets exactly the messages, model preferences, system prompt and context inclusion and its result is returned. (False for maxTokens, temperature, stopSequences and metadata of a sampling request, which never reach the handler.)", "quantifier": "every handler, request and returned value, strict or not", "why_tests_cant": "Requests and returned values are unbounded.", "anchors": ["src/mcp/Client.cpp:onRequest", "src/mcp/Server.cpp:coRequestRootsList", "src/mcp/Server.cpp:coRequestElicitation", "src/mcp/Server.cpp:coRequestCreateMessage"]}
{"id": "C75", "title": "A strict client sends no result and hands over no parameters of the wrong shape", "statement": "In strict mode every result the client sends has the documented shape of its method, and elicitation or sampling requests with parameters of the wrong shape are refused with InvalidParams without calling a handler or changing the client.", "quantifier": "every request, handler and client state", "why_tests_cant": "Values are unbounded.", "anchors": ["src/mcp/Client.cpp:onRequest", "src/mcp/validation/Validators.cpp"]}
{"id": "C76", "title": "Tasks of the client deliver what the request would have returned, and end", "statement": "A task request of the server to a client that announced it starts a task with the given ttl and a worker for exactly the given arguments; when the worker ends, tasks/result gives what the same request without a task would have given, with the related-task metadata added; every task without an outcome has a worker. (False for handlers that throw something other than std::exception: their tasks never end.)", "quantifier": "every history of the client, every handler and request", "why_tests_cant": "Histories and interleavings with workers are unbounded.", "anchors": ["src/mcp/Client.cpp:onRequest", "src/mcp/TaskSupport.h"]}
{"id": "C77", "title": "Progress, status and other notifications arrive as sent", "statement": "What SendProgress sends reaches the progress handler with the same token, progress and message (a strict client only accepts a token and a progress within [0, 1]); a task status notification hands over exactly the task; cancellations name their request; other notifications reach the handler of their method. (False for foreign servers that write progress or tokens as integers: the handler is told 0 or the empty token.)", "quantifier": "every notification, strict or not", "why_tests_cant": "Notifications are unbounded.", "anchors": ["src/mcp/Client.cpp:onNotification", "src/mcp/Client.cpp:handleProgressNotification", "src/mcp/Server.cpp:coSendProgress"]}
{"id": "C78", "title": "A strict server accepts only answers of the documented shape", "statement": "In strict mode RequestRootsList, RequestElicitation and the task requests of the server return a value only if the client's result has the documented shape. (False for RequestCreateMessage, which returns whatever the client sends.)", "quantifier": "every answer of the client", "why_tests_cant": "Answers are unbounded.", "anchors": ["src/mcp/Server.cpp:coRequestRootsList", "src/mcp/Server.cpp:coRequestElicitation", "src/mcp/Server.cpp:coRequestCreateMessage"]}
{"id": "C79", "title": "Unpaged list calls return everything registered", "statement": "ListTools, ListResources, ListResourceTemplates and ListPrompts, not answered from the cache, return every item registered with this library's server (visible to the client), field by field as registered, each once, in the order of names or uris, for every history of registrations.", "quantifier": "every history of registrations, strict or not on either side", "why_tests_cant": "Histories of registrations and items are unbounded.", "anchors": ["src/mcp/Client.cpp:coListTools", "src/mcp/Client.cpp:coListResources", "src/mcp/Client.cpp:coListResourceTemplates", "src/mcp/Client.cpp:coListPrompts", "src/mcp/Server.cpp:handleToolsList"]}
{"id": "C80", "title": "Bearer authentication stays on with its settings", "statement": "Once SetBearerAuth has been called, authentication stays enabled with that verifier, and the scopes it requires are those given there, whatever metadata is set later. (False of the scopes: SetProtectedResourceMetadata overwrites them.)", "quantifier": "every sequence of the two setters, every verifier and option set", "why_tests_cant": "Sequences of setter calls are unbounded.", "anchors": ["src/mcp/HTTPServer.cpp:SetBearerAuth", "src/mcp/HTTPServer.cpp:SetProtectedResourceMetadata"]}
{"id": "C81", "title": "Messages of the server go to the session they concern", "statement": "A request or notification the server sends while serving a request of a session is queued for that session. (False: it goes to the session created last, or is refused when that one was removed.)", "quantifier": "every history of sessions, sends and removals", "why_tests_cant": "Histories over many sessions are unbounded.", "anchors": ["src/mcp/HTTPServer.cpp:activeSession", "src/mcp/HTTPServer.cpp:SendRequest", "src/mcp/HTTPServer.cpp:SendNotification"]}
{"id": "C82", "title": "Endpoint requests act within one live session", "statement": "At the streamable HTTP endpoint an initialize request without a session header opens a session and returns its id; every other POST needs the id of a live session and a compatible protocol version, changes no other session, and is otherwise refused with nothing run; DELETE ends the session it names.", "quantifier": "every request, handler, session history and authentication setting", "why_tests_cant": "Requests, bodies and session histories are arbitrary.", "anchors": ["src/mcp/HTTPServer.cpp:handleEndpoint", "src/mcp/HTTPServer.cpp:createSession", "src/mcp/HTTPServer.cpp:validateProtocolHeader"]}
{"id": "C83", "title": "An HTTP request gets the answer of its handler", "statement": "Serving one HTTP request runs the request handler at most once, and when it ran the response is 200 with the handler's answer under the request's own id as its body. (False on the notification path, where the answer is dropped.)", "quantifier": "every HTTP request, option set and handler", "why_tests_cant": "Bodies and handlers are arbitrary.", "anchors": ["src/mcp/HTTPServer.cpp:makeResponse", "src/mcp/HTTPServer.cpp:handleRpc", "src/mcp/HTTPServer.cpp:handleNotify", "src/mcp/HTTPServer.cpp:handleEndpoint"]}
{"id": "C84", "title": "An HTTP client transport that is connected sends what it is given", "statement": "While IsConnected is true, every request and notification handed to the HTTP client transport is sent to the server once, also after the transport was closed and started again, and Close returns. (False after Close and Start: nothing is ever sent again, and with sessions the next Close never returns.)", "quantifier": "every history of starts, sends, exchanges, events and closes, every option set", "why_tests_cant": "The claim is about all continuations of a history; a test that waits can only see that nothing was sent yet.", "anchors": ["src/mcp/HTTPTransport.cpp:Start", "src/mcp/HTTPTransport.cpp:Close", "src/mcp/HTTPTransport.cpp:coPostJson"]}
{"id": "C85", "title": "The metadata of a protected resource is what was set", "statement": "A GET of the well-known metadata path (plain, or with the directory of the path requests go to) returns, without authentication, a JSON document whose authorization servers and supported scopes are exactly those set. (False for names that need escaping.)", "quantifier": "every server configuration, request and list of names", "why_tests_cant": "Names and paths are arbitrary texts.", "anchors": ["src/mcp/HTTPServer.cpp:buildResourceMetadataJson", "src/mcp/HTTPServer.cpp:makeResponse", "src/mcp/HTTPServer.cpp:SetProtectedResourceMetadata"]}
{"id": "C86", "title": "Discovery probes the well-known URLs of the standards", "statement": "For a server URL the URL of RFC 9728 section 3.1, and for an issuer URL those of RFC 8414 section 3.1 and OpenID Connect Discovery, are among the URLs probed, in the standard order. (False for server URLs whose path has two or more segments.)", "quantifier": "every URL text of the form scheme://host[:port][/path]", "why_tests_cant": "URLs are arbitrary texts.", "anchors": ["src/mcp/auth/OAuthDiscovery.cpp:buildWellKnownResourceMetadataUrls", "src/mcp/auth/OAuthDiscovery.cpp:buildAuthorizationServerMetadataUrls"]}
{"id": "C87", "title": "Metadata documents are read as they are", "statement": "parseProtectedResourceMetadata and parseAuthorizationServerMetadata give every member the value it has in the JSON document, and accept the document iff it names an authorization server or a token endpoint. (False when a quoted member name occurs earlier in the document, and for escapes by code point.)", "quantifier": "every document text, in any layout", "why_tests_cant": "Documents are arbitrary texts.", "anchors": ["src/mcp/auth/OAuthDiscovery.cpp:parseProtectedResourceMetadata", "src/mcp/auth/OAuthDiscovery.cpp:parseAuthorizationServerMetadata"]}
{"id": "C88", "title": "An https URL is fetched over TLS from its host", "statement": "A token request or metadata GET for an https URL uses TLS, checks the certificate against the host of the URL (or the configured name) and goes to the host, port and path of the URL. (False for schemes with capital letters, which go out in the clear, and for IPv6 addresses.)", "quantifier": "every URL text of the form scheme://host[:port][/path]", "why_tests_cant": "URLs are arbitrary texts.", "anchors": ["src/mcp/auth/OAuthDiscovery.cpp:parseUrlParts", "src/mcp/auth/OAuthDiscovery.cpp:coHttpGetWithStatus", "src/mcp/auth/OAuthClient.cpp:coPostFormUrlencoded"]}
{"id": "C89", "title": "Discovery finds what the server publishes", "statement": "What discovery returns was served with a success status at the URL of the challenge or a URL of the origin of the server; and a client given any URL of a server of this library finds exactly the authorization servers and scopes it was set to publish.", "quantifier": "every server configuration and state, every URL of the server, every behaviour of other hosts", "why_tests_cant": "Composition of two components over arbitrary configurations.", "anchors": ["src/mcp/auth/OAuthDiscovery.cpp:coDiscoverProtectedResourceMetadata", "src/mcp/auth/OAuthDiscovery.cpp:coDiscoverAuthorizationServerMetadata", "src/mcp/HTTPServer.cpp:buildResourceMetadataJson"]}
{"id": "C90", "title": "Shared-memory transport delivers in order, once, with matching answers", "statement": "Between the creator and the opener of a shared-memory channel every message the queue takes is processed by the peer in order and once; the queue keeps its limits; a request that cannot be sent fails at once; every request future completes at most once, with the response to that request or a transport error; and none stays open after Close. (False when an answer does not fit the queue, when a SendRequest overlaps Close, and when the opener leaves, of which the creator is not told.)", "quantifier": "every interleaving of sends, deliveries, handlers and closes on both sides, every size and count limit", "why_tests_cant": "Schedules of two processes are unbounded.", "anchors": ["src/mcp/SharedMemoryTransport.cpp:sendPayload", "src/mcp/SharedMemoryTransport.cpp:Start", "src/mcp/SharedMemoryTransport.cpp:SendRequest", "src/mcp/SharedMemoryTransport.cpp:Close"]}
{"id": "C91", "title": "The HTTP client sends what it was asked to send and nothing else", "statement": "Everything the HTTP client transport sends is the text of a request or notification it was given, the answer owed to a request of the server, or the DELETE of its session, at the path of its kind and under a session id the server gave; a request made when not connected fails at once; a request of the server is handed over once and answered; requests given own ids or none never take each other's place.", "quantifier": "every sequence of calls, deliveries, failures and handler behaviours", "why_tests_cant": "Any interleaving of calls and exchanges, any texts.", "anchors": ["src/mcp/HTTPTransport.cpp:SendRequest", "src/mcp/HTTPTransport.cpp:SendNotification", "src/mcp/HTTPTransport.cpp:coPostJson", "src/mcp/HTTPTransport.cpp:Close"]}
{"id": "C92", "title": "A request over HTTP is handled at most once and answered with its own answer", "statement": "A client transport and a server joined over HTTP: a request completes only with an error the client made or with the response owed for what the server's handler said to that very request; no request is handled twice; while the client's session lives at the server the exchange of a request that passes its checks hands it over and completes it with the response owed; an initialize request opens a session on both sides.", "quantifier": "every interleaving of calls, deliveries, losses, other clients and handler behaviours", "why_tests_cant": "Any interleaving of two processes, any texts, any losses of the network.", "anchors": ["src/mcp/HTTPTransport.cpp:SendRequest", "src/mcp/HTTPTransport.cpp:handleIncomingJson", "src/mcp/HTTPServer.cpp:handleEndpoint", "src/mcp/HTTPServer.cpp:makeResponse"]}
{"id": "C93", "title": "A request of the server over HTTP is put to the client once and answered with the client's answer", "statement": "A client transport and a server joined over HTTP: a request the server sends completes only with an error the server made when the session closed, a response with its id that another client sent, or the response owed for what the client's request handler said to that very request; the handler is given each request at most once and as the server's caller gave it; while the session lives an answer that reaches the server completes the request.", "quantifier": "every interleaving of calls, deliveries, losses, other clients and handler behaviours", "why_tests_cant": "Any interleaving of two processes, any texts, any losses of the network.", "anchors": ["src/mcp/HTTPTransport.cpp:handleIncomingJson", "src/mcp/HTTPServer.cpp:SendRequest", "src/mcp/HTTPServer.cpp:handleEndpoint"]}
{"id": "C94", "title": "A handler can ask the other side and gets the answer", "statement": "A request handler (a tool that asks for sampling, elicitation or roots) that sends a request over the stdio transport it was called through and waits for the response is given the response the other side writes, if it is written in time.", "quantifier": "every handler, every sequence of messages, every schedule", "why_tests_cant": "Any schedule of reader, timeout thread and application threads, any handlers and any messages.", "anchors": ["src/mcp/StdioTransport.cpp:drainFrames", "src/mcp/StdioTransport.cpp:processMessage", "src/mcp/StdioTransport.cpp:SendRequest", "src/mcp/JsonRpcMessageRouter.cpp:route", "src/mcp/Server.cpp:handleToolsCall"]}
{"id": "C95", "title": "A cancellation that arrives while a call runs reaches its handler", "statement": "A handler over the stdio transport whose call is cancelled by the client while it runs reads its stop token as stopped from then on.", "quantifier": "every handler, every sequence of messages, every schedule", "why_tests_cant": "Any schedule of reader, timeout thread and application threads, any handlers and any messages.", "anchors": ["src/mcp/StdioTransport.cpp:drainFrames", "src/mcp/StdioTransport.cpp:processMessage", "src/mcp/Server.cpp:handleNotification", "src/mcp/Server.cpp:handleToolsCall"]}
{"id": "C96", "title": "Requests read from standard input are answered once each and in order", "statement": "The stdio transport answers the requests the other side wrote one at a time, each once, in the order in which they were written, with what the handler did; while the connection lasts, the reader is never stuck for good, whatever handlers wait for.", "quantifier": "every handler, every sequence of messages, every schedule", "why_tests_cant": "Any schedule of reader, timeout thread and application threads, any handlers and any messages.", "anchors": ["src/mcp/StdioTransport.cpp:drainFrames", "src/mcp/StdioTransport.cpp:processMessage", "src/mcp/JsonRpcMessageRouter.cpp:route"]}
{"id": "C97", "title": "A configuration text means what it says", "statement": "A stdio or HTTP client transport made by its factory from a configuration text has exactly the settings the text gives, whatever their order and the blanks around them: the last value for a key counts, values are taken whole, keys that are not given keep their defaults, unknown keys change nothing; `timeout_ms=0` switches the limit off; line ends separate settings.", "quantifier": "every list of settings, every way to write it", "why_tests_cant": "Texts are unbounded: any keys, values, orders, repetitions and separators; what cannot be written at all (a value with a semicolon) is a statement about every text.", "anchors": ["src/mcp/StdioTransport.cpp:CreateTransport", "src/mcp/StdioTransport.cpp:SetRequestTimeoutMs", "src/mcp/HTTPTransport.cpp:CreateTransport", "include/mcp/HTTPTransport.hpp:Options"]}
{"id": "C98", "title": "The address and the channel in a configuration text are the ones used", "statement": "An HTTP server made from `scheme://host[:port][/path][?parameters]` listens on exactly that host and port, with TLS when the scheme is https; two shared memory endpoints made from the two documented texts for one channel name meet on that channel, one as creator.", "quantifier": "every host, port, path, list of parameters, channel name", "why_tests_cant": "Hosts, ports, names and parameter lists are unbounded; malformed texts form an infinite family that has to be treated safely.", "anchors": ["src/mcp/HTTPServer.cpp:CreateTransportAcceptor", "src/mcp/SharedMemoryTransport.cpp:CreateTransport"]}
{"id": "C99", "title": "The HTTP server accepts exactly the valid ports", "statement": "The HTTP server goes on to listen exactly when the port is written in decimal digits and is at most 65535; every other text is reported as an error that names it.", "quantifier": "every text", "why_tests_cant": "Every text is a possible port; numbers of any length have to be refused without wrapping round.", "anchors": ["src/mcp/HTTPServer.cpp:acceptLoop"]}
{"id": "C100", "title": "Log output does not disturb the messages on standard output", "statement": "Whatever a process that speaks over the stdio transport logs, and whenever, the other side reads exactly the messages that were sent.", "quantifier": "every message, every log entry, every time at which log text is passed on, every division into reads", "why_tests_cant": "The buffer of the console stream is passed on at times nobody controls, between or within writes of the transport; a test sees one of these times, and one damaged message has effects on all later ones.", "anchors": ["include/logging/Logger.h:log", "src/mcp/StdioTransport.cpp:Start", "src/mcp/StdioTransport.cpp:startWriter", "src/mcp/ContentLengthFramer.cpp:tryDecodeEx"]}
{"id": "C101", "title": "Each log entry is written exactly when its level asks for it", "statement": "A log entry reaches the console and the log file, whole, once and in order, exactly when its severity is not below the level set; setting a level by any of its names sets that level.", "quantifier": "every history of entries and level changes, every text for a level", "why_tests_cant": "Histories and texts are unbounded; that the last entry before the end of the process is lost depends on what the buffer holds at that time.", "anchors": ["include/logging/Logger.h:log", "include/logging/Logger.h:parseLogLevel", "include/logging/Logger.h:LOG_FATAL", "include/logging/Logger.h:setLogFile"]}
{"id": "C102", "title": "A call gives the result its answer says, once, whenever the answer comes", "statement": "Every call of the client gives its result exactly once; the call sends exactly its one request (or is a listing served from the cache), the result is what the answer to that request says, whether the answer comes before or after the call starts to wait and whatever other calls do meanwhile, and once the answer is there the result follows.", "quantifier": "every set of calls, every interleaving of their threads, every answer and every time of it", "why_tests_cant": "Whether the future is ready when the coroutine looks decides which thread goes on with the call; tests see one of the orders, and mixed-up answers of concurrent calls need particular ones.", "anchors": ["include/mcp/async/Task.h:promise_type", "include/mcp/async/FutureAwaitable.h:await_suspend", "include/mcp/async/FutureAwaitable.h:await_ready", "src/mcp/Client.cpp:coCallTool", "src/mcp/Client.cpp:coListTools"]}
{"id": "C103", "title": "What is passed to a call may go when the call has returned", "statement": "The caller of a call of the client need not keep the objects it passed (a task id, a URI, arguments) until the result is there; having the future back is enough.", "quantifier": "every call, every interleaving, every time at which the caller gives the objects up", "why_tests_cant": "Reading a destroyed string is undefined behaviour which mostly goes unnoticed, and it happens only if the answer comes after the coroutine has been suspended; with a fast server in one process the call finishes before it returns.", "anchors": ["src/mcp/Client.cpp:coGetTaskResult", "src/mcp/Server.cpp:coGetTaskResult", "include/mcp/async/Task.h:promise_type"]}
{"id": "C104", "title": "Destroying a client does not harm calls under way", "statement": "A client may be destroyed while calls are under way; their futures still end and nothing of the destroyed client is used.", "quantifier": "every set of calls, every interleaving, every time of the destruction", "why_tests_cant": "The detached threads that wait for answers outlive the client; whether they touch it depends on which of them the scheduler runs before the destructor.", "anchors": ["src/mcp/Client.cpp:~Client", "src/mcp/Client.cpp:coListTools", "include/mcp/async/FutureAwaitable.h:await_suspend"]}
{"id": "C105", "title": "No request waits for ever for the registry", "statement": "The server answers every request it works on, whatever the handlers do with the server they belong to (register, list, call other tools, read resources, get prompts) and however its threads are scheduled; handlers that run do not keep other requests waiting.", "quantifier": "every set of threads and programs, every set of handlers, every schedule", "why_tests_cant": "A deadlock needs a handler that uses its own server, and the waiting of others needs two threads at particular points; a test of one handler that leaves the server alone sees neither.", "anchors": ["src/mcp/Server.cpp:handlePromptsGet", "src/mcp/Server.cpp:coGetPrompt", "src/mcp/Server.cpp:resolveResourceRead", "src/mcp/Server.cpp:RegisterTool", "src/mcp/Server.cpp:registryMutex"]}
{"id": "C106", "title": "A server's own calls mirror what its clients get", "statement": "Server::CallTool, ReadResource and GetPrompt give the application the result that the response to the same tools/call, resources/read or prompts/get gives a client, and an error exactly where the response is an error (as the header says: results mirroring the responses).", "quantifier": "every server state, every set of handlers, every name, uri and arguments, every way a handler can end", "why_tests_cant": "The two paths are separate code that builds the result twice; tests compare them, if at all, for results without structured content on servers that are not strict.", "anchors": ["src/mcp/Server.cpp:coCallTool", "src/mcp/Server.cpp:coReadResource", "src/mcp/Server.cpp:coGetPrompt", "src/mcp/Server.cpp:handleToolsCall", "include/mcp/Server.h:CallTool"]}
{"id": "C107", "title": "When Stop is over nothing of the server runs", "statement": "When the future of Stop (or Disconnect) is ready, no handler of the application is running, none begins afterwards, every task has ended, and the server may be destroyed.", "quantifier": "every transport, every set of handlers and the requests they send, every interleaving of serving threads, workers, reading thread, Stop and destruction", "why_tests_cant": "The threads that serve requests are detached and the in-memory transport does not wait for its reading thread; what they use after Stop depends on the scheduler, and a test that sees a use of destroyed objects sees luck.", "anchors": ["src/mcp/Server.cpp:coStop", "src/mcp/Client.cpp:coDisconnect", "src/mcp/TaskSupport.h:BackgroundTaskGroup", "src/mcp/InMemoryTransport.cpp:Close", "src/mcp/SharedMemoryTransport.cpp:Close", "src/mcp/StdioTransport.cpp:Close", "src/mcp/Server.cpp:~Server", "src/mcp/InMemoryTransport.cpp:processMessage"]}
{"id": "C108", "title": "Stop comes to an end", "statement": "The future of Stop (or Disconnect) becomes ready when the handlers do their part: no handler is left waiting for an answer that cannot come.", "quantifier": "every transport, every set of handlers, every moment of Stop, every fair schedule", "why_tests_cant": "Hanging needs a handler to send its request in the moment between the closing of the transport and the end of its task; no test hits it on purpose, and liveness speaks of all schedules.", "anchors": ["src/mcp/Server.cpp:coStop", "src/mcp/Client.cpp:coDisconnect", "src/mcp/TaskSupport.h:BackgroundTaskGroup", "src/mcp/InMemoryTransport.cpp:Close", "src/mcp/SharedMemoryTransport.cpp:Close", "src/mcp/StdioTransport.cpp:Close", "src/mcp/InMemoryTransport.cpp:SendRequest", "src/mcp/SharedMemoryTransport.cpp:SendRequest", "src/mcp/StdioTransport.cpp:SendRequest"]}
{"id": "C109", "title": "The event stream of an HTTP client is kept open while it is connected and let go by Close", "statement": "While the transport is connected and has a session, a stream that ends is asked for again after the delay, with the session id of that moment, and what the server writes on its streams is handed on once and in order; a server that offers none (405) is not asked again and one that no longer knows the session (404) neither. After Close no message of the stream is handed on, and Close returns within the reconnect delay of the options once the network lets go. The thread of the stream never ends the process. (False where the server sends a delay of its own, a status text with 200 in it, 404, or an empty session id.)", "quantifier": "every history of connections, heads, pieces, losses, passing time, session changes and Close, every response text", "why_tests_cant": "How long Close waits depends on a number the server may have sent long before; a test would have to wait out the 49 days, and reconnecting for ever is a statement about all rounds.", "anchors": ["src/mcp/HTTPTransport.cpp:runSseLoop", "src/mcp/HTTPTransport.cpp:stopSseLoop", "src/mcp/HTTPTransport.cpp:maybeStartSseLoop", "src/mcp/HTTPTransport.cpp:Close"]}
{"id": "C110", "title": "Every request of an HTTP client carries the credentials in force, and what the server says of them can be looked up", "statement": "Each POST, DELETE and stream request carries Host, Accept, the protocol version, the session id of the moment it began and the token of the credentials in force at that moment: that of the last SetAuth, shared or by reference, or of the options; none after SetAuth(nullptr). A request for which a token has to be fetched waits for it and carries the one fetched, whatever happens in between. The server's check of the request is the verifier's verdict on that token. A refusal can be looked up by QueryLastHttpResponse until the next response, and its challenge parses to the metadata address and scopes of the server. Credentials are not used after they are gone. (False when a token cannot be fetched, when SetAuth comes during a fetch, and for a session id header in another case.)", "quantifier": "every history of requests, credentials set and dropped, token fetches, responses, passing time and Close, any number of requests in flight; all tokens, bodies, header lists and options", "why_tests_cant": "Which credentials a request carries depends on how requests in flight, token fetches and SetAuth interleave; a test runs one request against one set of credentials.", "anchors": ["src/mcp/HTTPTransport.cpp:coEnsureAuthHeader", "src/mcp/HTTPTransport.cpp:coPostJson", "src/mcp/HTTPTransport.cpp:coDeleteSession", "src/mcp/HTTPTransport.cpp:makeExchangeResult", "src/mcp/HTTPTransport.cpp:SetAuth", "src/mcp/HTTPTransport.cpp:QueryLastHttpResponse", "include/mcp/auth/BearerAuth.hpp"]}
{"id": "C111", "title": "What is built with the typed helpers is read on the other side as it was built", "statement": "A prompt or tool handler is given the arguments built with ArgsBuilder, each with the value given last. From a prompt, tool, resource or sampling result made with the builders the other side reads the description, model and role set last, finds each content item to be of the kind it was made and of no other, and collectText and firstText give the texts in the order they were added; strict validation lets all of it pass. (False for prompt messages with a role and a content, as the protocol has them: they pass but no text is found in them; and the messages the builder makes have neither.)", "quantifier": "all sequences of builder calls, all keys, values, texts and kinds of content, every server state with such a handler, strict or not", "why_tests_cant": "The builders accept any sequence of calls and values, and both the answering and the reading side pass the result on; a test builds one result.", "anchors": ["include/mcp/typed/Content.h:collectText", "include/mcp/typed/Prompts.h:ArgsBuilder", "include/mcp/typed/Prompts.h:ResultBuilder", "include/mcp/typed/Sampling.h:SamplingResultBuilder", "src/mcp/Client.cpp:GetPrompt", "src/mcp/Server.cpp:HandlePromptsGet"]}
{"id": "C112", "title": "Keepalives come one interval apart, and switching keepalive off silences it", "statement": "Between two keepalives at least the interval passes, the first comes an interval after keepalive was switched on, and left alone they come exactly an interval apart. While it is on, the thread stays at work whatever the connection does, until a failed send closes the transport, and sends again when there is a connection. From the moment keepalive is switched off or the server stopped at most one more is sent, and none once the call has returned, until keepalive is switched on again. The call always returns; it takes no time if the thread is asleep and never more than the longest interval set. (False: setting another interval sends a keepalive at once; a call that comes when the thread is just about to fall asleep waits for the whole interval; keepalive switched off in the error callback cannot be switched on again.)", "quantifier": "every interleaving of the keepalive thread with the calls that set the interval, stop the server or come from the error callback, all intervals and times, wake-ups without cause included", "why_tests_cant": "The races between the flags and the wait need schedules a test cannot force, and the claims are about all intervals and all time.", "anchors": ["src/mcp/Server.cpp:SetKeepaliveIntervalMs", "src/mcp/Server.cpp:coStop", "src/mcp/Server.cpp:~Server"]}
{"id": "C113", "title": "A call of the server gives what its client's answer says, once, and asks only for what was announced", "statement": "Every call of the server to its client gives its result exactly once. It either declines (no transport, a capability that was not announced, parameters of the wrong shape in strict mode) and sends nothing, or sends exactly its one request and gives what the answer to that request says, whenever the answer comes. Roots, elicitations and tasks are asked for only after the client was seen to announce them. A strict server takes a value for the result of a task it made only if it has the shape of that kind of task, or the answer was no result. Arguments may go when the call has returned, and no call uses a server or a transport that is not there. (False: sampling and the requests about tasks are sent to any client; task calls before Start use a null pointer; GetTaskResult reads its argument after it may be gone; destroying a server with any call but a sampling request under way.)", "quantifier": "every set of calls, every interleaving, every time at which answers come, arguments go, the server changes or is destroyed", "why_tests_cant": "The calls go on in detached threads; what they find then depends on schedules a test cannot force, and reading freed memory often goes unnoticed.", "anchors": ["src/mcp/Server.cpp:coRequestRootsList", "src/mcp/Server.cpp:coRequestCreateMessage", "src/mcp/Server.cpp:coRequestElicitation", "src/mcp/Server.cpp:coGetTaskResult", "include/mcp/async/FutureAwaitable.h"]}
{"id": "C114", "title": "Over standard input and output a call gets the answer of the other side's handler to it", "statement": "Two stdio transports are joined by two pipes. What one side takes is what the other side queued, in that order and each message once, whatever parts the pipe hands out. Every request put to a handler is one the other side gave, with its method and parameters, and no request is put to it twice. A future completed with a response was completed with what the handler of the other side answered to that very request. When callers make no new calls and handlers send no requests, both sides come to rest, however their threads take turns; if they are then still connected, every open call has completed with its answer. The threads give up a connection only for a message beyond the content limit or the write queue. (An answer beyond the content limit of the caller ends the connection and leaves the call open until Close, time limit or not.)", "quantifier": "every sequence of calls, notifications, reads, writes, disconnects and time limits on both sides, every split of the bytes, every fair order of the threads at the end", "why_tests_cant": "Two processes, two writer threads, two reader threads and any number of callers; a test sees a few of the orders and a few of the ways in which bytes are split.", "anchors": ["src/mcp/StdioTransport.cpp:SendRequest", "src/mcp/StdioTransport.cpp:drainFrames", "src/mcp/StdioTransport.cpp:processMessage", "src/mcp/StdioTransport.cpp:enqueueFrame", "src/mcp/ContentLengthFramer.cpp:tryDecodeEx"]}
{"id": "C115", "title": "A call of a client gives what the server's handler returned for it, end to end over standard input and output", "statement": "A client and a server are joined by two stdio transports and two pipes. Every call of the client that comes to its end gives either the error of a request that got no answer (time limit, Close, no connection) or the value made of the answer the server dispatched to the request of that very call, with the method and parameters of the call; two calls never share a dispatch. CallTool gives a value that is not an error only if the handler the server had under that name returned, for exactly these arguments, exactly this content, error flag, structured content and metadata; GetPrompt likewise for the description and messages. Every use the server made of a tool was asked for by a request of the client with that name and these arguments, and no request was used twice. When no new calls are made and handlers return, every call that waits comes to its end, however the threads of both processes take turns, as long as both ends stay connected. The server's process is ended by an exception that is no std::exception and leaves a handler, and by nothing else; after that it does nothing more.", "quantifier": "every sequence of calls of the client in every interleaving of their threads, every split of the bytes on the pipes, every registration and task activity on the server, every fair order of the threads of both processes at the end", "why_tests_cant": "Only the whole system has this property: client calls, two transports with their threads, the pipes and the dispatcher; a test runs one order with an in-memory transport or one split of the bytes.", "anchors": ["src/mcp/Client.cpp:CallTool", "src/mcp/Client.cpp:GetPrompt", "src/mcp/StdioTransport.cpp:SendRequest", "src/mcp/StdioTransport.cpp:processMessage", "src/mcp/Server.cpp:dispatchRequest"]}
{"id": "C116", "title": "A call of a client gives what the server's handler returned for it, end to end over HTTP", "statement": "A client and a server talk over the HTTP transport and the HTTP server, with sessions, tokens, event streams and other clients. Calls of the client and dispatches of the server for this client belong to each other one to one: every dispatch that gave an answer or was ended by an exception was for one call of the client, with its method and parameters, and no call is dispatched twice, whatever POSTs are lost, refused or answered late. A call that comes to its end gives a listing from the cache, or the error of a request that got no answer (mismatched id, empty response, Close, no connection), or what it makes of the answer of its own dispatch. CallTool gives a value that is not an error only if the handler the server had under that name while it served a POST of this client returned, for exactly these arguments, exactly this content, error flag, structured content and metadata; GetPrompt likewise for the description and messages.", "quantifier": "every sequence of calls of the client in every interleaving of their threads, every order in which POSTs are sent, served, answered and lost, every state of sessions and tokens, everything other clients and the owner of the server do", "why_tests_cant": "Only the whole system has this property: client calls, the transport with its io thread, the network, the server's sessions and its dispatcher; tests run a loopback server, where nothing is lost and answers come in order.", "anchors": ["src/mcp/Client.cpp:CallTool", "src/mcp/Client.cpp:GetPrompt", "src/mcp/HTTPTransport.cpp:SendRequest", "src/mcp/HTTPServer.cpp:Impl::handleRpc", "src/mcp/Server.cpp:dispatchRequest"]}
{"id": "C117", "title": "An HTTP server can be started, stopped, started again and destroyed", "statement": "The future of Start becomes ready once, when the server listens or the error handler was told why it does not, or the server is being stopped; it always becomes ready. Stop always returns, and then no thread of the server is left. A stopped server can be started again, also one whose Start failed. A server can be destroyed at any time between calls: the destructor returns and nothing uses the server afterwards.", "quantifier": "every sequence of calls of Start, Stop and the destructor, every order in which connections, requests, handlers, event streams and messages come and go between and during them, every interleaving of the threads", "why_tests_cant": "The threads of the server (io thread, one per request, one per event stream) meet Stop and the destructor at points that a test does not choose; a test that starts, asks once and stops sees one order.", "anchors": ["src/mcp/HTTPServer.cpp:HTTPServer::Start", "src/mcp/HTTPServer.cpp:HTTPServer::Stop", "src/mcp/HTTPServer.cpp:Impl::~Impl", "src/mcp/HTTPServer.cpp:Impl::acceptLoop", "src/mcp/HTTPServer.cpp:Impl::coMakeResponse"]}
{"id": "C118", "title": "A stdio transport can be started, closed, started again and destroyed", "statement": "Close always returns, and then no thread of the transport is left. A closed transport can be started again: the new life has the input for itself, is not ended by what the old one left behind, and sends nothing but what is sent in it, each frame whole. A transport can be destroyed at any time between calls: the destructor returns, the process goes on, and nothing uses the transport afterwards.", "quantifier": "every sequence of calls of Start, Close (also from a handler) and the destructor, every input, every duration of handlers and writes, every interleaving of the caller and the threads that read, write and watch the deadlines", "why_tests_cant": "The threads meet Close and the destructor at points that a test does not choose, and the 500 ms of Close are over only with a handler or a write that takes that long; what a thread that was let go does to the next life shows later, if at all.", "anchors": ["src/mcp/StdioTransport.cpp:StdioTransport::Start", "src/mcp/StdioTransport.cpp:StdioTransport::Close", "src/mcp/StdioTransport.cpp:Impl::~Impl", "src/mcp/StdioTransport.cpp:Impl::processReadLoop", "src/mcp/StdioTransport.cpp:Impl::writerLoop", "src/mcp/StdioTransport.cpp:Impl::timeoutLoop"]}
{"id": "C119", "title": "An in-memory transport can be started, closed, started again and destroyed", "statement": "Start, Close and the destructor return. Messages are taken in the order in which they were put into the queue, each once, by one thread at a time. After Close no handler is called and nothing of one life is seen in the next. When the destructor has returned no thread of the transport is left, nothing uses it afterwards, and a request sent to it fails.", "quantifier": "every sequence of calls of Start, Close and the destructor, every sequence of messages of the other transport, every duration of handlers, every interleaving of the caller, the threads that take messages, the threads of requests and the other transport", "why_tests_cant": "The thread of one life meets the next Start at points that a test does not choose; a use of a destroyed transport often shows nothing; and a test that hangs once in many runs is taken for a slow machine.", "anchors": ["src/mcp/InMemoryTransport.cpp:InMemoryTransport::Start", "src/mcp/InMemoryTransport.cpp:InMemoryTransport::Close", "src/mcp/InMemoryTransport.cpp:Impl::~Impl", "src/mcp/InMemoryTransport.cpp:Impl::startProcessing", "src/mcp/InMemoryTransport.cpp:Impl::processMessage", "src/mcp/InMemoryTransport.cpp:Impl::sendToPeer"]}
{"id": "C120", "title": "Shared-memory transports of one channel can be started, closed, started again and destroyed", "statement": "Start, Close (also when a notification handler calls it) and the destructor return. After Close the transport says that it is not connected, every request has got its answer and, unless it was called on the transport's own thread, that thread has ended; after the destructor no thread is left and nothing uses the transport. An opener that is started while a creator of its channel is started is joined to it: each reads the queue the other writes. When the creator goes away, every opener says after a time that it is not connected and its requests have got their answers.", "quantifier": "every number of creators and openers on a channel, every sequence of calls of Start, Close and the destructor, every sequence of messages, every failure of the queues, every duration of handlers, every interleaving of callers and threads", "why_tests_cant": "A test has one creator and one opener and ends them in good order; what a second creator, a second opener or a restart while the old thread still waits on its queue does depends on the moment, and a use of a mapping that is gone often shows nothing.", "anchors": ["src/mcp/SharedMemoryTransport.cpp:SharedMemoryTransport::Start", "src/mcp/SharedMemoryTransport.cpp:SharedMemoryTransport::Close", "src/mcp/SharedMemoryTransport.cpp:Impl::~Impl", "src/mcp/SharedMemoryTransport.cpp:Impl::processMessage"]}
{"id": "C121", "title": "The functions of a server may be used from several threads without a data race", "statement": "Whatever functions of a server are called, from however many threads, while requests, notifications and errors come in on the threads of its transport: no two accesses of one of its members, one of which writes, are without an order between them (within a thread, by a mutex or by the start of a thread).", "quantifier": "every program that uses a server, every number of threads, every branch taken in every function, every interleaving", "why_tests_cant": "A data race shows in a test only when the two accesses fall together and the compiler or the hardware makes something of it; which pairs of accesses can fall together is a matter of all functions and all schedules.", "anchors": ["src/mcp/Server.cpp:Impl::dispatchRequest", "src/mcp/Server.cpp:Impl::handleUnsubscribeRequest", "src/mcp/Server.cpp:Impl::parseClientCapabilities", "src/mcp/Server.cpp:Impl::collectVisibleResources", "src/mcp/Server.cpp:Server::SetKeepaliveIntervalMs", "src/mcp/Server.cpp:Server::RegisterTool", "src/mcp/TaskSupport.h:TaskStore"]}
{"id": "C122", "title": "The functions of a transport may be used from several threads without a data race", "statement": "Whatever functions of an in-memory, stdio or shared-memory transport are called, from however many threads and from its handlers, while messages come in: no two accesses of one of its members, one of which writes, are without an order between them.", "quantifier": "every program that uses a transport, every number of threads, every branch taken in every function, every interleaving", "why_tests_cant": "A data race shows in a test only when the two accesses fall together and the compiler or the hardware makes something of it; which pairs of accesses can fall together is a matter of all functions and all schedules.", "anchors": ["src/mcp/InMemoryTransport.cpp:Impl::processMessage", "src/mcp/InMemoryTransport.cpp:Impl::startProcessing", "src/mcp/StdioTransport.cpp:Impl::enqueueFrame", "src/mcp/StdioTransport.cpp:StdioTransport::Start", "src/mcp/StdioTransport.cpp:StdioTransport::SetMaxContentLength", "src/mcp/SharedMemoryTransport.cpp:SharedMemoryTransport::Start", "src/mcp/SharedMemoryTransport.cpp:Impl::sendPayload"]}
{"id": "C123", "title": "The functions of a client may be used from several threads without a data race", "statement": "Whatever functions of a client are called, from however many threads and from its handlers, while requests, notifications, answers and errors of the server come in: no two accesses of one of its members, one of which writes, are without an order between them.", "quantifier": "every program that uses a client, every number of threads, every branch taken in every function, every message of the server, every interleaving", "why_tests_cant": "A data race shows in a test only when the two accesses fall together and the compiler or the hardware makes something of it; which pairs of accesses can fall together is a matter of all functions and all schedules.", "anchors": ["src/mcp/Client.cpp:Client::Impl::onRequest", "src/mcp/Client.cpp:Client::Impl::onNotification", "src/mcp/Client.cpp:Client::Impl::coConnect", "src/mcp/Client.cpp:Client::Impl::coInitialize", "src/mcp/Client.cpp:Client::Impl::coListTools", "src/mcp/Client.cpp:Client::SetListingsCacheTtlMs", "src/mcp/Client.cpp:Client::SetNotificationHandler"]}
{"id": "C124", "title": "The functions of both ends of HTTP may be used from several threads without a data race", "statement": "Whatever functions of an HTTP transport or of an HTTP server are called, from however many threads and from its handlers, while answers, connections and streams come in: no two accesses of one of its members, one of which writes, are without an order between them.", "quantifier": "every program that uses an HTTP transport or server, every number of threads, every branch taken in every function, every interleaving", "why_tests_cant": "A data race shows in a test only when the two accesses fall together and the compiler or the hardware makes something of it; which pairs of accesses can fall together is a matter of all functions and all schedules.", "anchors": ["src/mcp/HTTPTransport.cpp:HTTPTransport::Impl::maybeStartSseLoop", "src/mcp/HTTPTransport.cpp:HTTPTransport::Close", "src/mcp/HTTPTransport.cpp:HTTPTransport::SendRequest", "src/mcp/HTTPServer.cpp:HTTPServer::Stop", "src/mcp/HTTPServer.cpp:HTTPServer::IsConnected", "src/mcp/HTTPServer.cpp:HTTPServer::GetSessionId", "src/mcp/HTTPServer.cpp:Impl::createSession"]}
{"id": "C125", "title": "IsRunning says whether the server is serving an initialized client", "statement": "IsRunning of the server is true exactly when a client has gone through the initialize handshake with it, its transport is connected and Stop has not been called since.", "quantifier": "every order of Start, Stop, HandleInitialize, loss of the connection and of the messages that arrive, and every point at which each message is handled", "why_tests_cant": "A test sees the flag after one handshake; whether it is right after every order of starts, stops, losses and late notifications is a matter of all histories.", "anchors": ["src/mcp/Server.cpp:Server::IsRunning", "src/mcp/Server.cpp:Server::Impl::coStart", "src/mcp/Server.cpp:Server::Impl::coStop", "src/mcp/Server.cpp:Server::HandleInitialize"]}
{"id": "C126", "title": "The initialize handshake is answered and announced once, answer first", "statement": "For each initialize request the server sends its answer and then the notifications that go with it, each once, in the order in which the documentation gives them; for other requests it sends the answer only, and none before initialize.", "quantifier": "every number of requests and clients, every interleaving of the threads that handle requests, every loss of the connection, every call of Start, Stop and HandleJSONRPC", "why_tests_cant": "The order in which the messages of several requests leave the server depends on the schedule; that each is sent once, in order, under every schedule needs the whole set of executions.", "anchors": ["src/mcp/Server.cpp:Server::Impl::sendInitializedAndListChangedAsync", "src/mcp/Server.cpp:Server::Impl::dispatchRequest", "src/mcp/Server.cpp:Server::HandleJSONRPC"]}
{"id": "C127", "title": "What was kept for a request is let go when the request is over", "statement": "When no request is running the server and the client keep no tokens and no stop sources; tasks that have ended go when their time to live is over; sessions and what is queued in them go when their client is gone.", "quantifier": "every number of requests, tasks, sessions and cancellations, with equal or different ids, in every order, ended in every order", "why_tests_cant": "Growth over the life of a process does not show in a test of one request; that the tables are empty whenever nothing runs is a statement about all histories.", "anchors": ["src/mcp/Server.cpp:Server::Impl::releaseCancelToken", "src/mcp/Server.cpp:Server::Impl::registerStopSource", "src/mcp/Server.cpp:Server::Impl::unregisterStopSource", "src/mcp/Server.cpp:Server::Impl::cancelById", "src/mcp/TaskSupport.h:TaskStore", "src/mcp/HTTPServer.cpp:Impl::createSession", "src/mcp/HTTPServer.cpp:Impl::removeSession", "src/mcp/HTTPServer.cpp:Impl::queueOutbound"]}
{"id": "C128", "title": "What a client lists comes from the server it is connected to", "statement": "A list call of a client that is connected gives what the server at the other end of that connection said, whatever the client was connected to before; IsConnected is about that connection.", "quantifier": "every number of connections one after another, every order of list calls, replies, stores into the cache, notifications, changes of the time to live, losses and Disconnects", "why_tests_cant": "A test connects a client once; whether something of an earlier connection can come out after a later Connect is a matter of all histories and of when the calls under way go on.", "anchors": ["src/mcp/Client.cpp:Client::Impl::coConnect", "src/mcp/Client.cpp:Client::Impl::coDisconnect", "src/mcp/Client.cpp:Client::Impl::coListTools", "src/mcp/Client.cpp:Client::IsConnected"]}
{"id": "C129", "title": "A call of a client gives what the server's handler returned for it, end to end over the in-memory transport", "statement": "A client and a server in one process are joined by a pair of in-memory transports. Every call of the client that comes to its end gives a cached listing, or the value made of the answer the server dispatched to the request of that very call, with the method and parameters of the call; only if a transport has been closed may it be the error that the peer is not connected or that the transport was closed. Two calls never share a dispatch, and every use the server made of a handler was asked for by one call, no call having two. CallTool and GetPrompt give a value that is not an error only if the handler returned exactly this for exactly these arguments. As long as nothing is closed, a call whose request the server answers comes to its end, even if the requests of other calls are handled for ever and new calls are made all the time. The process of both is ended by an exception that is no std::exception and leaves a handler, and by nothing else.", "quantifier": "every sequence of calls of the client in every interleaving of their threads, every order in which the threads that handle requests run, every registration and task activity on the server, every execution without end in which the threads of the transports and the thread of this request have their turns", "why_tests_cant": "The server handles every request on a thread of its own, so the answers come in any order, and whether one call can get the answer of another, or wait because another one hangs, is a matter of all orders; a test sees the order the scheduler happened to choose.", "anchors": ["src/mcp/InMemoryTransport.cpp:SendRequest", "src/mcp/InMemoryTransport.cpp:processMessages", "src/mcp/Client.cpp:CallTool", "src/mcp/Server.cpp:dispatchRequest"]}
{"id": "C130", "title": "A call of the server to its client gives what the client's handler returned for it, end to end over the in-memory transport", "statement": "A server and a client in one process are joined by a pair of in-memory transports. Every call of the server to the client that comes to its end was declined without a request (no transport, a capability the client lacks), or gives what the call makes of the answer the client gave to the request of that very call, with its method and parameters, and to no other; only if a transport has been closed may it be the error that the peer is not connected or that the transport was closed. Every request the client handled is that of one call, and no call is handled twice. RequestCreateMessage gives null, an error object, or exactly what the sampling handler returned for exactly these messages, preferences, system prompt and context; RequestRootsList gives the roots the handler returned, in order, without those that have no uri, or none; RequestElicitation gives what the handler returned for exactly this request, or an empty result, and throws only if a strict server got an action the protocol does not know; Ping does not throw while nothing is closed. As long as nothing is closed, a call whose request the client answers comes to its end, even if the requests of other calls are handled for ever. The process of both is ended by an exception that is no std::exception and leaves a handler, and by nothing else.", "quantifier": "every sequence of calls of the server in every interleaving of their threads, with ids of the transport or of the caller, every order in which the threads that handle requests run, every change of the client's handlers and task activity, every execution without end in which the threads of the transports and the thread of this request have their turns", "why_tests_cant": "The client handles every request on a thread of its own, the application may choose ids, and handlers may be exchanged at any time; which call gets which answer is a matter of all orders, and a test sees the one the scheduler happened to choose.", "anchors": ["src/mcp/InMemoryTransport.cpp:SendRequest", "src/mcp/InMemoryTransport.cpp:processMessages", "src/mcp/Server.cpp:coRequestCreateMessageWithId", "src/mcp/Client.cpp:onRequest"]}
{"id": "C131", "title": "The result a client gets for a task is what the tool returned for the arguments of the call that started the task", "statement": "If CallToolTask gives a task, and GetTaskResult for the id of that task gives a value that is not an error, then between the two the handler that was registered under the name of the tool when the first request was dispatched ran to its end on exactly the arguments of the call, and the value has the content, the error flag, the structured content and the metadata that the handler returned, with nothing added but the metadata that names the task. In a server, an outcome that is an error tells that the task was cancelled on request, or what the handler threw, or that strict mode did not take what it returned. No task id is given out twice.", "quantifier": "every execution of a server, with any number of tasks, workers that end in any order, handlers exchanged and tasks cancelled at any time; and every execution of a client and a server joined by the in-memory transport, by stdio or by HTTP", "why_tests_cant": "Several tasks of the same tool run at once on threads of their own, and end in an order that no test fixes; an outcome stored under the id of another task, or taken from a handler registered later, is seen only in some of the orders.", "anchors": ["src/mcp/Server.cpp:handleToolsCall", "src/mcp/TaskSupport.h:WaitForTerminalPayload", "src/mcp/TaskSupport.h:CompleteTask", "src/mcp/Client.cpp:coCallToolTask", "src/mcp/Client.cpp:coGetTaskResult"]}
{"id": "C132", "title": "The result a server gets for a task of its client is what the client's handler returned for the request that started the task", "statement": "If RequestCreateMessageTask or RequestElicitationTask gives a task, and GetTaskResult for the id of that task gives a value that is not an error, then between the two the client's handler, as registered when the worker of the task ran it, returned for exactly the messages and options, or exactly the elicitation request, of the call, and the value is what it returned, marked with the id of the task. In a client, an outcome that is an error tells that the task was cancelled on request, what the handler threw, that there was no handler any more, or that strict mode did not take what it returned. No task id is given out twice.", "quantifier": "every execution of a client, with any number of tasks, workers that end in any order, handlers exchanged or taken away and tasks cancelled at any time; and every execution of a server and a client joined by the in-memory transport", "why_tests_cant": "Several tasks of both kinds run at once on threads of their own and read the handlers when they run; which outcome is stored under which id depends on orders that no test fixes.", "anchors": ["src/mcp/Client.cpp:onRequest", "src/mcp/TaskSupport.h:CompleteTask", "src/mcp/Server.cpp:coRequestCreateMessageTask", "src/mcp/Server.cpp:coRequestElicitationTask", "src/mcp/Server.cpp:coGetTaskResult"]}
{"id": "C133", "title": "A call of a client gives what the server's handler returned for it, end to end over the shared-memory transport", "statement": "With a client and a server connected by the shared-memory transport, either of them being the creator of the queues, every call of the client that ends gives a cached listing, or what the server's dispatcher answered to a request with exactly the method and the parameters of this call, an answer no longer than the limits of both sides, or one of the transport's errors for a reason that holds: too large only for a request above the client's limit, not connected or closed only when a transport was told to end or the client's limit is below that of the queues. No two calls share an answer. A tool is run only for a call that asks for it, at most once per call, with the arguments of that call; the value of CallTool, GetPrompt and of a task fetched with GetTaskResult is what the handler returned. As long as nothing is closed, a call whose request the server answers, with an answer for which there is room, comes to its end, even if the requests of other calls are handled for ever and new calls are made all the time. A call must not be lost because of what its parameters say. The server's process is ended by an exception that is no std::exception and leaves a handler, and by nothing else; after that it does nothing more.", "quantifier": "every execution of a client and a server over a pair of shared-memory transports: all interleavings of any number of calls, of the checks, the filing and the sending of their requests, of both processing threads and of the handlers, with full queues, too large messages, closing and the end of the server's process at any moment; every execution without end in which the threads of the transports and the thread of this request have their turns", "why_tests_cant": "Answers are matched by ids that the transport makes up, requests are filed and sent in separate steps by several threads, and queues fill or close in between; which interleavings mix up answers cannot be enumerated by running two processes.", "anchors": ["src/mcp/SharedMemoryTransport.cpp:SendRequest", "src/mcp/SharedMemoryTransport.cpp:processMessage", "src/mcp/SharedMemoryTransport.cpp:sendPayload", "src/mcp/Client.cpp:CallTool", "src/mcp/Server.cpp:dispatchRequest"]}
{"id": "C134", "title": "A call of a server to its client gives what the client's handler returned for it, end to end over the shared-memory transport", "statement": "With a server and a client connected by the shared-memory transport, either of them being the creator of the queues, every call of the server to its client that ends was declined without asking, for want of a transport, of an announced capability or of well-formed parameters; or gives what the client answered to a request with exactly the method and the parameters of this call, an answer no longer than the limits of both sides; or is told one of the transport's errors for a reason that holds. No two calls share an answer, and the client handles each call at most once, also with ids given by the caller. RequestCreateMessage, RequestRootsList and RequestElicitation give what the handler registered with the client returned for exactly this request; Ping does not throw if it is answered. A call to which the client comes to an answer ends, whatever becomes of the other calls. What is given for a task of the client is what its handler returned for the request that began the task. A call must not be lost because of what its parameters say. The client's process is ended by an exception that is no std::exception and leaves a handler, and by nothing else; after that it does nothing more.", "quantifier": "every execution of a server and a client over a pair of shared-memory transports: all interleavings of any number of calls, of the checks, the filing and the sending of their requests, of both processing threads and of the handlers, with full queues, too large messages, closing and the end of the client's process at any moment", "why_tests_cant": "Ids of callers and ids made by the transport share one table, requests are filed and sent in separate steps by several threads, and queues fill or close in between; which interleavings mix up answers cannot be enumerated by running two processes.", "anchors": ["src/mcp/SharedMemoryTransport.cpp:SendRequest", "src/mcp/SharedMemoryTransport.cpp:processMessage", "src/mcp/Server.cpp:RequestCreateMessageWithId", "src/mcp/Server.cpp:RequestElicitation", "src/mcp/Client.cpp:onRequest"]}
{"id": "C135", "title": "A call of a server to its client gives what the client's handler returned for it, end to end over standard input and output", "statement": "A server and a client are joined by two stdio transports and two pipes. Every call of the server to its client that comes to its end was declined without asking, for want of a transport, of an announced capability or of well-formed parameters; or gives what the client answered to a request with exactly the method and the parameters of this call; or is told that there is no answer, because of the time limit, of Close or of a missing connection. No two calls share an answer, and the client handles each call at most once, also with ids given by the caller. RequestCreateMessage, RequestRootsList and RequestElicitation give what the handler registered with the client returned for exactly this request; Ping does not throw if it is answered. What is given for a task of the client is what its handler returned for the request that began the task. When no new calls are made and the handlers return, every call that waits comes to its end, however the threads of both processes take turns, as long as both ends stay connected. The client's process is ended by an exception that is no std::exception and leaves a handler, and by nothing else; after that it does nothing more.", "quantifier": "every sequence of calls of the server in every interleaving of their threads, every split of the bytes on the pipes, every use the client's owner makes of the client meanwhile, every fair order of the threads of both processes at the end", "why_tests_cant": "Only the whole system has this property: the server's calls, two transports with their threads, the pipes and the client's request handler; ids of callers and of the transport share one table, and a test runs one order and one split of the bytes.", "anchors": ["src/mcp/StdioTransport.cpp:SendRequest", "src/mcp/StdioTransport.cpp:processMessage", "src/mcp/Server.cpp:RequestCreateMessageWithId", "src/mcp/Server.cpp:RequestElicitation", "src/mcp/Client.cpp:onRequest"]}
{"id": "C136", "title": "A call of a server to its client gives what the client's handler returned for it, end to end over HTTP", "statement": "A server sends its requests over an HTTPServer, and a client with an HTTPTransport listens. Every call of the server to its client that comes to its end was declined without asking, for want of a transport, of an announced capability or of well-formed parameters; or gives what the client answered to a request with exactly the method and the parameters of this call; or is told that there is no session, or that its session or the transport was closed; or somebody else posted a response with the id of its request. No two calls share an answer. The client handles each request at most once, with the method and the parameters it was sent with, whatever sessions come and go. RequestCreateMessage, RequestRootsList and RequestElicitation give what the handler registered with the client returned for exactly this request; Ping does not throw if it is answered. What is given for a task of the client is what its handler returned for the request that began the task. As long as nothing fails, a call to a client that listens is answered, whatever came before; while its session stays open and one of its streams keeps writing the request reaches the stream, a client that goes on listening there handles it, and if no connection fails and the client's posts are admitted its answer comes back and the call comes to its end, in whatever order the threads run and whatever else is sent; and a call that waits comes to its end once there was no session for it, its answer came in or the session it was sent to was closed. A client whose process was ended by an exception no handler may throw does nothing more, and nothing else ends it.", "quantifier": "every sequence of calls of the server in every interleaving of their threads, every sequence of sessions, streams, connections and failures of the transports, every use the client's owner makes of the client meanwhile", "why_tests_cant": "Only the whole system has this property: the server's calls, the HTTP server with its sessions and queues, the event streams, the posts of the answers and the client's request handler; ids of callers and of the transport share one table for each session, and a test runs one order of the threads.", "anchors": ["src/mcp/HTTPServer.cpp:SendRequest", "src/mcp/HTTPTransport.cpp:handleIncomingJson", "src/mcp/Server.cpp:RequestCreateMessageWithId", "src/mcp/Server.cpp:RequestElicitation", "src/mcp/Client.cpp:onRequest"]}
