import Verif.Http.Sessions

/-!
Model of the HTTP client transport, src/mcp/HTTPTransport.cpp: `deliverInternalError` 239-257, `deliverResponse` 259-291,
`generateRequestId` 293-295, what `coPostJson` sends 309-329, `handleIncomingJson` 458-501, `maybeStartSseLoop` 503-515, `Start` 750-767,
`Close` 769-831, `SendRequest` 842-923, `SendNotification` 925-948 and `SetRequestHandler`.

A POST is a coroutine on the io thread: it is queued, then sent (the session header is read then), then over. How an exchange ends is a
parameter of the step: the body and the Mcp-Session-Id header of the response, both empty when it failed (the HTTP status is not looked
at). `SendRequest` is two steps, the check of the connection and the rest. Steps on the io thread happen only while it runs: `Close` stops
its context, and nothing ever restarts it. The event stream is read by a thread of its own; that it gets a response and that it gives up are
steps, its events come in any order with them. `Close` waits for an exchange of its own; a `Close` that waits for an io thread that is not there
never returns, and `Start` while the thread is there ends the process (a joinable `std::thread` is assigned to), as does opening a stream
when the thread of an earlier one was not joined; both are flags here.
Calls with null pointers, TLS, authentication headers and the future of `SendNotification` are not modelled; nor are request handlers that
throw anything but a `std::exception`, notification handlers that throw, and handlers that call `Close`.
-/

namespace Verif.Http

variable {D : Type}

/-- `HTTPTransport::Options`, the fields the model uses. -/
structure HtOpts where
  endpointPath : Bytes
  rpcPath : Bytes
  notifyPath : Bytes
  enableGetStream : Bool
  enableDeleteOnClose : Bool

/-- `useStreamableHttp`, `requestPath` and `notifyPath`, 153-163. -/
def HtOpts.streamable (o : HtOpts) : Bool := !o.endpointPath.isEmpty
def HtOpts.requestTo (o : HtOpts) : Bytes := if o.streamable then o.endpointPath else o.rpcPath
def HtOpts.notifyTo (o : HtOpts) : Bytes := if o.streamable then o.endpointPath else o.notifyPath

/-- What a POST is for: a request filed under a key (and whether it is an initialize that starts a session), a notification, or the answer
to a request of the server. -/
inductive PostFor where
  | request (key : Bytes) (starts : Bool)
  | note
  | answer
  deriving DecidableEq

inductive PostStage where
  | queued (k : PostFor) (body : Bytes)
  | sent (k : PostFor)
  | over
  deriving DecidableEq

/-- Something sent to the server: a POST or the DELETE of `Close`. -/
structure Sent where
  delete : Bool
  path : Bytes
  session : Bytes
  body : Bytes
  deriving DecidableEq

/-- The io thread: not started, running, or its context stopped. -/
inductive Io where
  | idle | running | stopped
  deriving DecidableEq

/-- `HTTPTransport::Impl`, 50-95: `sse` is `sseRunning`, `sseThread` that the thread is joinable. `handled`, `notified` and `wire` are history variables: the requests and notifications handed to the
handlers, and what was sent. -/
structure Ht (D : Type) where
  tab : PTab (SOut D)
  connected : Bool
  io : Io
  session : Bytes
  counter : Nat
  tickets : List (Option (Request D))
  posts : List PostStage
  wire : List Sent
  sse : Bool
  sseEnabled : Bool
  sseThread : Bool
  handled : List (Request D)
  notified : List (Notification D)
  hung : Bool
  terminated : Bool

def Ht.init : Ht D := ⟨PTab.init, false, .idle, [], 0, [], [], [], false, true, false, [], [], false, false⟩

/-- The registered handlers; the request handler may be absent. -/
structure HtHandlers (D : Type) where
  request : Option (Request D → HandlerOutcome D)
  notification : Bool
  error : Bool

/-- The handlers given to the router, 467-474. -/
def HtHandlers.wrap (h : HtHandlers D) : Handlers D :=
  ⟨some (fun r => match h.request with
      | some f => f r
      | none => .resp ⟨r.id, none, some (mkErrorObj Code.methodNotAllowed (lit "No request handler registered") none)⟩),
    h.notification, h.error⟩

/-- An error made here, 251-254. -/
def localError (key text : Bytes) : SOut D := .resp ⟨.str key, none, some (mkErrorObj Code.internalError text none)⟩

/-- `deliverInternalError`, 239-257. -/
def Ht.fail (s : Ht D) (key text : Bytes) : Ht D := { s with tab := s.tab.complete key (localError key text) }

/-- `deliverResponse`, 259-291, and whether it says so. -/
def Ht.deliver (s : Ht D) (r : Response D) (fallback : Bytes) : Ht D × Bool :=
  if keyText r.id ≠ [] ∧ (AMap.get s.tab.pending (keyText r.id)).isSome then
    ({ s with tab := s.tab.complete (keyText r.id) (.resp r) }, true)
  else if fallback ≠ [] then (s.fail fallback (lit "Mismatched response id"), true)
  else (s, false)

/-- The resolver of 476-479 on the responses of a routing (there is at most one). -/
def Ht.deliverAll (s : Ht D) (l : List (RouteEffect D)) (fallback : Bytes) : Ht D × Bool :=
  l.foldl (fun p e => match e with | .resolved r => p.1.deliver r fallback | _ => p) (s, false)

/-- What the handlers were handed. -/
def notesOf (l : List (RouteEffect D)) : List (Notification D) := l.filterMap (fun e => match e with | .notified n => some n | _ => none)

/-- `handleIncomingJson`, 458-501. -/
def Ht.incoming [DblFmt D] (h : HtHandlers D) (s : Ht D) (json fallback : Bytes) : Ht D :=
  let rr := route h.wrap json
  let s1 := { s with handled := s.handled ++ rr.requestsHandled, notified := s.notified ++ notesOf rr.effects }
  let d := s1.deliverAll rr.effects fallback
  match rr.reply with
  | some body => { d.1 with posts := d.1.posts ++ [.queued .answer body] }
  | none => if !d.2 && !fallback.isEmpty then d.1.fail fallback (lit "Invalid/empty HTTP response") else d.1

/-- The request as it is filed and sent, 858-876. -/
def Ht.withId (s : Ht D) (r : Request D) : Request D × Nat :=
  if keyText r.id = [] then ({ r with id := .str (lit "http-req-" ++ natDec ((s.counter + 1) % 2 ^ 32)) }, (s.counter + 1) % 2 ^ 32) else (r, s.counter)

/-- The check of `SendRequest`, 849-855. -/
def Ht.send (s : Ht D) (r : Request D) : Ht D :=
  if s.connected then { s with tickets := s.tickets ++ [some r] }
  else { s with tab := s.tab.immediate (.resp ⟨r.id, none, some (mkErrorObj Code.internalError (lit "Transport not connected") none)⟩) }

/-- The rest of `SendRequest`, 857-922. -/
def Ht.file [DblFmt D] (o : HtOpts) (s : Ht D) (t : Nat) : Ht D :=
  match s.tickets[t]? with
  | some (some r) =>
    let w := s.withId r
    { s with
      tickets := s.tickets.set t none
      counter := w.2
      tab := s.tab.insert (keyText w.1.id) .broken
      posts := s.posts ++ [.queued (.request (keyText w.1.id) (o.streamable && decide (r.method = lit "initialize"))) (serRequest w.1)] }
  | _ => s

/-- `SendNotification`, 925-948. -/
def Ht.note [DblFmt D] (s : Ht D) (n : Notification D) : Ht D :=
  if s.connected then { s with posts := s.posts ++ [.queued .note (serNotification n)] } else s

/-- The path of a POST. -/
def HtOpts.pathFor (o : HtOpts) : PostFor → Bytes
  | .request _ _ => o.requestTo
  | .note => o.notifyTo
  | .answer => o.notifyTo

/-- A POST is sent, 309-329. -/
def Ht.begin (o : HtOpts) (s : Ht D) (k : Nat) : Ht D :=
  match s.io, s.posts[k]? with
  | .running, some (.queued p body) =>
    { s with posts := s.posts.set k (.sent p), wire := s.wire ++ [⟨false, o.pathFor p, if o.streamable then s.session else [], body⟩] }
  | _, _ => s

/-- `maybeCaptureSessionId`, 226-232. -/
def Ht.capture (s : Ht D) (sid : Bytes) : Ht D := if sid = [] then s else { s with session := sid }

/-- `maybeStartSseLoop`, 503-515. -/
def Ht.startSse (o : HtOpts) (s : Ht D) : Ht D :=
  if o.streamable && o.enableGetStream && s.sseEnabled && !s.session.isEmpty && !s.sse then
    { s with sse := true, sseThread := true, terminated := s.terminated || s.sseThread }
  else s

/-- What is done with the end of an exchange, 897-920, 939-946 and 485-496. -/
def Ht.completed [DblFmt D] (o : HtOpts) (h : HtHandlers D) (s : Ht D) (p : PostFor) (body sid : Bytes) : Ht D :=
  match p with
  | .request key starts =>
    let s1 := s.capture sid
    let s2 := if starts && !sid.isEmpty then s1.startSse o else s1
    if body ≠ [] then s2.incoming h body key else s2.fail key (lit "Invalid/empty HTTP response")
  | .note => s.capture sid
  | .answer => s.capture sid

/-- An exchange ends. -/
def Ht.finish [DblFmt D] (o : HtOpts) (h : HtHandlers D) (s : Ht D) (k : Nat) (body sid : Bytes) : Ht D :=
  match s.io, s.posts[k]? with
  | .running, some (.sent p) => ({ s with posts := s.posts.set k .over }).completed o h p body sid
  | _, _ => s

/-- An exchange fails before anything is sent: authentication, resolving or connecting threw, 329-376. -/
def Ht.failEarly [DblFmt D] (o : HtOpts) (h : HtHandlers D) (s : Ht D) (k : Nat) : Ht D :=
  match s.io, s.posts[k]? with
  | .running, some (.queued p _) => ({ s with posts := s.posts.set k .over }).completed o h p [] []
  | _, _ => s

/-- A message on the event stream, 526-528. -/
def Ht.event [DblFmt D] (h : HtHandlers D) (s : Ht D) (json : Bytes) : Ht D := if s.sse && s.connected then s.incoming h json [] else s

/-- A response to the request for the event stream, 588-621: its Mcp-Session-Id header, if there is one, becomes the session id, also when it
is empty. -/
def Ht.opened (s : Ht D) (header : Option Bytes) : Ht D :=
  if s.sse && s.connected then { s with session := header.getD s.session } else s

/-- The thread of the event stream gives up: the server does not offer one (405, 594-597), or there is no session id (577-579). -/
def Ht.giveUp (s : Ht D) (refused : Bool) : Ht D :=
  if s.sse && (refused || s.session.isEmpty) then { s with sse := false, sseEnabled := s.sseEnabled && !refused } else s

/-- `Start`, 750-767. -/
def Ht.start (s : Ht D) : Ht D :=
  match s.io with
  | .idle => { s with connected := true, io := .running }
  | .running => { s with terminated := true }
  | .stopped => { s with connected := true }

/-- `Close`, 769-831. -/
def Ht.close (o : HtOpts) (s : Ht D) : Ht D :=
  if s.connected && o.streamable && o.enableDeleteOnClose && decide (s.io ≠ .running) then { s with hung := true }
  else
    { s with
      wire := s.wire ++ (if s.connected && o.streamable && o.enableDeleteOnClose && !s.session.isEmpty then [⟨true, o.requestTo, s.session, []⟩] else [])
      sse := false
      sseEnabled := false
      sseThread := false
      connected := false
      session := []
      io := .stopped
      tab := s.tab.closeAll (localError · (lit "Transport closed")) }

inductive HtOp (D : Type) where
  | start
  | send (r : Request D)
  | file (t : Nat)
  | note (n : Notification D)
  | begin (k : Nat)
  | finish (h : HtHandlers D) (k : Nat) (body sid : Bytes)
  | failEarly (h : HtHandlers D) (k : Nat)
  | event (h : HtHandlers D) (json : Bytes)
  | opened (header : Option Bytes)
  | giveUp (refused : Bool)
  | close

def Ht.step [DblFmt D] (o : HtOpts) (s : Ht D) : HtOp D → Ht D
  | .start => s.start
  | .send r => s.send r
  | .file t => s.file o t
  | .note n => s.note n
  | .begin k => s.begin o k
  | .finish h k body sid => s.finish o h k body sid
  | .failEarly h k => s.failEarly o h k
  | .event h json => s.event h json
  | .opened header => s.opened header
  | .giveUp refused => s.giveUp refused
  | .close => s.close o

def Ht.run [DblFmt D] (o : HtOpts) (s : Ht D) (ops : List (HtOp D)) : Ht D := ops.foldl (Ht.step o) s

end Verif.Http
