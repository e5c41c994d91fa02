import Verif.Http.Auth
import Verif.Http.Challenge
import Verif.Http.Headers
import Verif.Http.Sessions

/-!
Model of how the HTTP server serves one request, src/mcp/HTTPServer.cpp: the branch of `session_plain` and `session_tls` for event streams
413-437, `buildResourceMetadataJson` 612-633, `enforceAuthAndScope` 640-697, `handleRpc` 703-744, `handleNotify` 750-776,
`handleEndpoint` 778-878 and `makeResponse` 880-936.

A request is served against a state of the sessions; what it does to them is given as the list of operations of `Hs` it performs, in
order (a lookup that changes nothing is left out), so that the interleavings of `Sessions.lean` apply. Handlers are functions of the
message and of the token info they see (`TokenInfoScope`). Boost's parsing of HTTP is not modelled: a request is its verb, target, headers
and body, an absent header being the empty text. Handlers that throw something other than a `std::exception` are not modelled.
-/

namespace Verif.Http

variable {D : Type}

inductive Verb where
  | get | post | delete | other
  deriving DecidableEq

structure HttpReq where
  verb : Verb
  target : Bytes
  host : Bytes
  origin : Bytes
  authorization : Bytes
  session : Bytes
  version : Bytes
  body : Bytes

/-- `HTTPServer::Options`, the fields the model uses. -/
structure SrvOpts where
  address : Bytes
  rpcPath : Bytes
  notifyPath : Bytes
  endpointPath : Bytes
  streamPath : Bytes

/-- The response written; `session` and `www` are the headers Mcp-Session-Id and WWW-Authenticate, empty when not set. -/
structure Reply where
  status : Nat
  body : Bytes
  session : Bytes
  www : Bytes
  deriving DecidableEq

/-- What serving a request did. No reply means that an exception ended the connection. -/
structure Served (D : Type) where
  reply : Option Reply
  handled : List (Request D × Option TokenInfo)
  notified : List (Notification D × Option TokenInfo)
  /-- How often the error handler was called. -/
  reported : Nat
  ops : List (HsOp D)

/-- A reply and nothing else. -/
def Served.just (status : Nat) (body : Bytes) : Served D := ⟨some ⟨status, body, [], []⟩, [], [], 0, []⟩

/-- `useStreamableHttp`, 134-136. -/
def SrvOpts.streamable (o : SrvOpts) : Bool := !o.endpointPath.isEmpty

/-- `streamPath`, 142-147. -/
def SrvOpts.stream (o : SrvOpts) : Bytes := if o.streamPath = [] then o.endpointPath else o.streamPath

/-- A list of texts in quotes, separated by commas, 615-621. -/
def quotedList : List Bytes → Bytes
  | [] => []
  | [v] => ['"'] ++ v ++ ['"']
  | v :: w :: l => ['"'] ++ v ++ ['"', ','] ++ quotedList (w :: l)

/-- `buildResourceMetadataJson`, 612-633. -/
def metadataJson (o : BearerOpts) : Bytes :=
  lit "{\"authorization_servers\":[" ++ quotedList o.authorizationServers ++ lit "],\"scopes_supported\":[" ++ quotedList o.scopesSupported ++
    lit "]}"

/-- The response to a failed check, 651-696. -/
def authFailure (o : BearerOpts) (status : Nat) (message : Bytes) : Reply :=
  ⟨if status = 403 then 403 else 401, lit "{\"error\":\"" ++ message ++ lit "\"}", [],
    if o.resourceMetadataUrl = [] then [] else challengeFor status o.resourceMetadataUrl o.requiredScopes message⟩

/-- `enforceAuthAndScope` and the `TokenInfoScope` after it, 708-712, 754-758, 783-787. -/
def guarded (a : AuthCfg) (now : Int) (req : HttpReq) (k : Option TokenInfo → Served D) : Served D :=
  match a.check now req.authorization with
  | none => k (if a.enabled then some ⟨[], 0, []⟩ else none)
  | some .threw => ⟨none, [], [], 0, []⟩
  | some (.refused status message) => ⟨some (authFailure a.opts status message), [], [], 0, []⟩
  | some (.passed info) => k (some info)

section handlers
variable [DblFmt D]

/-- The responses among the effects of a routing. -/
def resolvedOf (l : List (RouteEffect D)) : List (Response D) := l.filterMap (fun e => match e with | .resolved r => some r | _ => none)
def notifiedOf (l : List (RouteEffect D)) : List (Notification D) := l.filterMap (fun e => match e with | .notified n => some n | _ => none)
def reportedOf (l : List (RouteEffect D)) : Nat := l.countP (fun e => match e with | .reported => true | _ => false)

/-- What a routing did, with the token info the handlers saw. -/
def routed (tok : Option TokenInfo) (rr : RouteResult D) (reply : Reply) (reported : Nat) (ops : List (HsOp D)) : Served D :=
  ⟨some reply, rr.requestsHandled.map (fun r => (r, tok)), (notifiedOf rr.effects).map (fun n => (n, tok)), reportedOf rr.effects + reported, ops⟩

/-- `CreateErrorResponse(nullptr, code, message)` serialised. -/
def nullError (code : Int) (message : Bytes) : Bytes := serResponse (⟨.null, none, some (mkErrorObj code message none)⟩ : Response D)

/-- `handleRpc`, 712-744. -/
def handleRpc (h : Option TokenInfo → Handlers D) (req : HttpReq) (tok : Option TokenInfo) : Served D :=
  match deRequest (D := D) req.body with
  | none => .just 200 (nullError (D := D) Code.parseError (lit "Parse error"))
  | some rpc =>
    let rr := route (h tok) req.body
    let unexpected := if (h tok).error then (resolvedOf rr.effects).length else 0
    match rr.reply with
    | some body => routed tok rr ⟨200, body, [], []⟩ unexpected []
    | none =>
      routed tok rr ⟨200, serResponse (⟨rpc.id, none, some (mkErrorObj Code.internalError (lit "Router did not produce response") none)⟩ : Response D),
        [], []⟩ unexpected []

/-- `handleNotify`, 758-776. -/
def handleNotify (h : Option TokenInfo → Handlers D) (req : HttpReq) (tok : Option TokenInfo) : Served D :=
  match deNotification (D := D) req.body with
  | none => .just 200 (nullError (D := D) Code.invalidRequest (lit "Invalid notification"))
  | some _ => routed tok (route (h tok) req.body) ⟨200, lit "{}", [], []⟩ 0 []

/-- The protocol version asked for by an initialize request, 823-832. -/
def requestedVersion (r : Request D) : Bytes :=
  match r.params with
  | some (.obj m) =>
    match AMap.get m (lit "protocolVersion") with
    | some (.str v) => v
    | _ => currentVersion
  | _ => currentVersion

/-- Whether `resolvePendingResponse` finds a promise, 363-395. -/
def Sess.awaits (x : Sess D) (r : Response D) : Bool := !(keyText r.id).isEmpty && (AMap.get x.pend.pending (keyText r.id)).isSome

/-- The routing within a session, 848-877: `sid` names the session object `x`, and the lookup in `before` found it. -/
def withinSession (h : Option TokenInfo → Handlers D) (s : Hs D) (before : List (HsOp D)) (sid : Bytes) (x : Sess D) (req : HttpReq)
    (tok : Option TokenInfo) : Served D :=
  let rr := route (h tok) req.body
  let unexpected := if (h tok).error then ((resolvedOf rr.effects).filter (fun r => !x.awaits r)).length else 0
  let ops := before ++ (resolvedOf rr.effects).map (fun r => HsOp.answer s.finds.length r)
  match rr.reply with
  | some body => routed tok rr ⟨200, body, sid, []⟩ unexpected ops
  | none => routed tok rr ⟨202, [], sid, []⟩ unexpected ops

/-- The initialize request that opens a session, 819-821. -/
def opening (req : HttpReq) : Option (Request D) :=
  match deRequest (D := D) req.body with
  | some r => if r.method = lit "initialize" ∧ req.session = [] then some r else none
  | none => none

/-- `handleEndpoint`, 787-878. `drawn` is the id `generateSessionId` would draw. `JSONRPCResponse::Deserialize` never fails (`deResponse` is
total), so the parse error of 809-815 and the last lines 874-876 are not reached. -/
def handleEndpoint (h : Option TokenInfo → Handlers D) (s : Hs D) (drawn : Bytes) (req : HttpReq) (tok : Option TokenInfo) : Served D :=
  if req.verb = .delete then
    if req.session = [] then .just 400 (lit "{\"error\":\"Missing session id\"}")
    else ⟨some ⟨204, [], [], []⟩, [], [], 0, [.remove req.session]⟩
  else if req.verb ≠ .post then .just 405 (lit "{\"error\":\"POST or DELETE required\"}")
  else
    match opening (D := D) req with
    | some r => withinSession h s [.create drawn (requestedVersion r), .find drawn] drawn (Sess.fresh (requestedVersion r)) req tok
    | none =>
      match s.lookup req.session with
      | none => .just 400 (lit "{\"error\":\"Missing or invalid session\"}")
      | some o =>
        match s.objs[o]? with
        | none => .just 400 (lit "{\"error\":\"Missing or invalid session\"}")
        | some x =>
          if !versionAccepted x.version req.version then .just 400 (lit "{\"error\":\"Unsupported protocol version\"}")
          else withinSession h s [.find req.session] req.session x req tok

/-- The path up to the last slash, 891-896. -/
def baseOf (path : Bytes) : Bytes :=
  match splitCh '/' path.reverse with
  | none => []
  | some (_, r) => r.reverse

/-- The well-known paths of the metadata, 897-899. -/
def wellKnown : Bytes := lit "/.well-known/oauth-protected-resource"
def SrvOpts.wellKnownBase (o : SrvOpts) : Bytes := wellKnown ++ baseOf (if o.streamable then o.endpointPath else o.rpcPath)

/-- `makeResponse`, 880-936. -/
def makeResponse (loopback : Bytes → Bool) (o : SrvOpts) (a : AuthCfg) (now : Int) (h : Option TokenInfo → Handlers D) (s : Hs D)
    (drawn : Bytes) (req : HttpReq) : Served D :=
  match localHeaders loopback o.address req.host req.origin with
  | some body => .just 403 body
  | none =>
    if req.target = wellKnown ∨ req.target = o.wellKnownBase then
      if req.verb ≠ .get then .just 405 (lit "{\"error\":\"GET required\"}") else .just 200 (metadataJson a.opts)
    else if o.streamable = true ∧ req.target = o.endpointPath then guarded a now req (handleEndpoint h s drawn req)
    else if req.verb ≠ .post then .just 400 (lit "{\"error\":\"POST required\"}")
    else if req.target = o.rpcPath then guarded a now req (handleRpc h req)
    else if req.target = o.notifyPath then guarded a now req (handleNotify h req)
    else .just 404 (lit "{\"error\":\"Not found\"}")

/-- A request for the event stream, 416-437. -/
def openEvents (loopback : Bytes → Bool) (o : SrvOpts) (s : Hs D) (req : HttpReq) : Served D :=
  match localHeaders loopback o.address req.host req.origin with
  | some body => .just 403 body
  | none =>
    match s.lookup req.session with
    | none => .just 400 (lit "{\"error\":\"Missing or invalid session\"}")
    | some i =>
      match s.objs[i]? with
      | none => .just 400 (lit "{\"error\":\"Missing or invalid session\"}")
      | some x =>
        if !versionAccepted x.version req.version then .just 400 (lit "{\"error\":\"Unsupported protocol version\"}")
        else ⟨some ⟨200, [], req.session, []⟩, [], [], 0, [.find req.session, .openStream s.finds.length]⟩

/-- One request on a connection, 411-482. -/
def serve (loopback : Bytes → Bool) (o : SrvOpts) (a : AuthCfg) (now : Int) (h : Option TokenInfo → Handlers D) (s : Hs D) (drawn : Bytes)
    (req : HttpReq) : Served D :=
  if o.streamable = true ∧ req.verb = .get ∧ req.target = o.stream then openEvents loopback o s req
  else makeResponse loopback o a now h s drawn req

end handlers

end Verif.Http
