import Verif.Http.Headers
import Verif.Http.Auth
import Verif.Auth.Token

/-!
Model of the requests an HTTP client makes and of its credentials, src/mcp/HTTPTransport.cpp: the credentials made from the options 124-147,
`recordResponse` 173-192, `makeExchangeResult` 194-210, `maybeCaptureSessionId` 227-233, `coEnsureAuthHeader` 297-307, the headers of
`coPostJson` 309-377, of `coDeleteSession` 379-453 and of the request for the event stream 573-588, `SetAuth` 977-993,
`QueryLastHttpResponse` 995-1018; and `BearerAuth` (include/mcp/auth/BearerAuth.hpp).

An exchange is a coroutine. Up to the first suspension it is one step: the headers are set, the credentials in use are taken (a raw pointer) and asked
to get ready. OAuth credentials may then fetch a token (Auth/Token), and the exchange goes on when the fetch is over; credentials of the
application's own give any headers, at once or later, or throw. Connecting, TLS and the writing are not modelled: the request is on the wire, or the
exchange fails. `SetAuth` is a step; that it races with a request that begins on the io thread at the same moment (neither holds a
lock) is not modelled. An object is destroyed when neither the transport nor the application holds it; using it then is the flag `ub`.
Of the event stream only the request is modelled here.
-/

namespace Verif.Http

/-- Header fields: a name and a value each. -/
abbrev Fields := List (Bytes × Bytes)

/-- `beast::iequals`. -/
def sameName (a b : Bytes) : Bool := decide (a.map lowerCh = b.map lowerCh)

/-- `basic_fields::set`: the fields of that name go, the new one comes last. -/
def Fields.put (f : Fields) (name value : Bytes) : Fields := f.filter (fun x => !sameName x.1 name) ++ [(name, value)]

/-- `operator[]`: the value of the first field of that name, or nothing. -/
def Fields.look (f : Fields) (name : Bytes) : Bytes := ((f.find? (fun x => sameName x.1 name)).map (·.2)).getD []

/-- The loop over the headers of the credentials, 302-304. -/
def Fields.putAll (f : Fields) (hs : Fields) : Fields := hs.foldl (fun f h => f.put h.1 h.2) f

/-- An `IAuth` object. -/
inductive Cred where
  | bearer (token : Bytes)
  | oauth (skew : Nat) (tk : Auth.Tk)
  | own (waits : Bool) (headers : Fields)

/-- `headers()`. -/
def Cred.headers : Cred → Fields
  | .bearer t => if t = [] then [] else [(lit "Authorization", lit "Bearer " ++ t)]
  | .oauth _ tk => tk.headers
  | .own _ hs => hs

/-- `ensureReady()` up to where it suspends: the object, and the call that is under way if it does. -/
def Cred.ensure : Cred → Cred × Option Nat
  | .bearer t => (.bearer t, none)
  | .oauth skew tk => (.oauth skew (tk.step skew .ensure), if tk.fresh skew then none else some tk.calls.length)
  | .own waits hs => (.own waits hs, if waits then some 0 else none)

/-- The rest of `ensureReady()`: what the token endpoint said. -/
def Cred.resumed (call : Nat) (resp : Bytes) : Cred → Cred
  | .oauth skew tk => .oauth skew (tk.step skew (.reply call resp))
  | c => c

/-- Time passes. -/
def Cred.tick (d : Nat) : Cred → Cred
  | .oauth skew tk => .oauth skew (tk.step skew (.tick d))
  | c => c

/-- An object, and whether the application holds it. -/
structure CredObj where
  cred : Cred
  kept : Bool

inductive XVerb where
  | post | delete | get
  deriving DecidableEq

/-- The options that matter here; `scheme` is only about the name sent as Host. -/
structure XOpts where
  streamable : Bool
  https : Bool
  host : Bytes
  serverName : Bytes

/-- The Host field, 352, 366, 428, 441, 574 and 663. -/
def XOpts.hostField (o : XOpts) : Bytes := if o.https && !o.serverName.isEmpty then o.serverName else o.host

/-- A response. -/
structure XResp where
  status : Nat
  fields : Fields
  body : Bytes

/-- `HttpResponseInfo`. -/
structure RespInfo where
  status : Nat
  headers : Fields
  challenge : Bytes
  deriving DecidableEq

inductive XStage where
  | waiting (verb : XVerb) (f : Fields) (body : Bytes) (obj call : Nat)
  | ready (verb : XVerb) (f : Fields) (body : Bytes)
  | sent (verb : XVerb)
  | over
  deriving DecidableEq

/-- A request on the wire. -/
structure XSent where
  verb : XVerb
  fields : Fields
  body : Bytes
  deriving DecidableEq

/-- The transport. `wire` is a history variable. -/
structure Xt where
  objs : List CredObj
  strong : Option Nat
  weak : Option Nat
  session : Bytes
  xs : List XStage
  wire : List XSent
  last : RespInfo
  ub : Bool

/-- The constructor: the credentials the options ask for belong to the transport alone. -/
def Xt.init (given : Option Cred) : Xt :=
  ⟨(given.map (fun c => (⟨c, false⟩ : CredObj))).toList, given.map (fun _ => 0), none, [], [], [], ⟨0, [], []⟩, false⟩

/-- `authStrong ? authStrong.get() : authWeak`, 298. -/
def Xt.inUse (s : Xt) : Option Nat := match s.strong with | some i => some i | none => s.weak

/-- The application holds the object. -/
def Xt.held (s : Xt) (i : Nat) : Bool := match s.objs[i]? with | some o => o.kept | none => false

/-- The object is there. -/
def Xt.alive (s : Xt) (i : Nat) : Bool := decide (s.strong = some i) || s.held i

def Xt.setCred (s : Xt) (i : Nat) (c : Cred) : Xt := { s with objs := s.objs.modify i (fun o => { o with cred := c }) }

/-- The decimal text of the length of the body. -/
def bodyLength (body : Bytes) : Bytes := natDec body.length

/-- The session id and version fields, 317-326 and 397-400, 577-583. -/
def sessionFields (f : Fields) (session : Bytes) : Fields :=
  (if session = [] then f else f.put (lit "Mcp-Session-Id") session).put (lit "MCP-Protocol-Version") currentVersion

/-- The fields a request has before the credentials are asked. -/
def baseFields (o : XOpts) (session : Bytes) : XVerb → Bytes → Fields
  | .post, body =>
    let f := ((((Fields.put [] (lit "Content-Type") (lit "application/json")).put (lit "Accept")
      (if o.streamable then lit "application/json, text/event-stream" else lit "application/json")).put (lit "Connection") (lit "close")).put
      (lit "Content-Length") (bodyLength body))
    if o.streamable then sessionFields f session else f
  | .delete, _ => sessionFields ((Fields.put [] (lit "Accept") (lit "application/json")).put (lit "Connection") (lit "close")) session
  | .get, _ => sessionFields ((Fields.put [] (lit "Host") o.hostField).put (lit "Accept") (lit "text/event-stream")) session

/-- The Host field of a POST or DELETE is set when it is connected. -/
def finalFields (o : XOpts) (verb : XVerb) (f : Fields) : Fields := if verb = .get then f else f.put (lit "Host") o.hostField

/-- A request that needs a session is made only when there is one, 393-395 and 577-579. -/
def Xt.mayBegin (s : Xt) (o : XOpts) (verb : XVerb) : Bool := verb = .post || (o.streamable && !s.session.isEmpty)

/-- A request begins. -/
def Xt.begin (o : XOpts) (s : Xt) (verb : XVerb) (body : Bytes) : Xt :=
  if s.mayBegin o verb then
    let f := baseFields o s.session verb body
    match s.inUse with
    | none => { s with xs := s.xs ++ [.ready verb f body] }
    | some i =>
      match s.alive i, s.objs[i]? with
      | true, some obj =>
        let e := obj.cred.ensure
        let s1 := s.setCred i e.1
        match e.2 with
        | none => { s1 with xs := s.xs ++ [.ready verb (f.putAll e.1.headers) body] }
        | some call => { s1 with xs := s.xs ++ [.waiting verb f body i call] }
      | _, _ => { s with ub := true }
  else s

/-- The credentials are ready, or the fetch failed. -/
def Xt.fetched (s : Xt) (k : Nat) (resp : Bytes) : Xt :=
  match s.xs[k]? with
  | some (.waiting verb f body i call) =>
    match s.alive i, s.objs[i]? with
    | true, some obj =>
      let c := obj.cred.resumed call resp
      { s.setCred i c with xs := s.xs.set k (.ready verb (f.putAll c.headers) body) }
    | _, _ => { s with ub := true }
  | _ => s

/-- The request is written. -/
def Xt.send (o : XOpts) (s : Xt) (k : Nat) : Xt :=
  match s.xs[k]? with
  | some (.ready verb f body) => { s with xs := s.xs.set k (.sent verb), wire := s.wire ++ [⟨verb, finalFields o verb f, body⟩] }
  | _ => s

/-- The loop of `makeExchangeResult` over the fields, 199-207: the last field of exactly that name. -/
def sessionOf (f : Fields) : Bytes := f.foldl (fun sid x => if x.1 = lit "Mcp-Session-Id" then x.2 else sid) []

/-- `recordResponse`, 173-192. -/
def recorded (r : XResp) : RespInfo := ⟨r.status, r.fields, Fields.look r.fields (lit "WWW-Authenticate")⟩

/-- The response to a POST or a DELETE. -/
def Xt.answer (s : Xt) (k : Nat) (r : XResp) : Xt :=
  match s.xs[k]? with
  | some (.sent .post) =>
    { s with xs := s.xs.set k .over, last := recorded r, session := if sessionOf r.fields = [] then s.session else sessionOf r.fields }
  | some (.sent .delete) => { s with xs := s.xs.set k .over, last := recorded r }
  | _ => s

/-- The exchange fails, before or after the request was sent. -/
def Xt.fail (s : Xt) (k : Nat) : Xt := { s with xs := s.xs.set k .over }

/-- `QueryLastHttpResponse`, 995-1018. -/
def Xt.query (s : Xt) : Option RespInfo :=
  if s.last.status ≠ 0 ∨ s.last.headers ≠ [] ∨ s.last.challenge ≠ [] then some s.last else none

inductive XOp where
  /-- the application makes an object -/
  | new (c : Cred)
  /-- `SetAuth(std::shared_ptr)` -/
  | setShared (i : Nat)
  /-- `SetAuth(IAuth&)` -/
  | setRef (i : Nat)
  /-- `SetAuth(nullptr)` -/
  | setNone
  /-- the application lets go of an object -/
  | drop (i : Nat)
  | tick (d : Nat)
  | begin (verb : XVerb) (body : Bytes)
  | fetched (k : Nat) (resp : Bytes)
  | send (k : Nat)
  | answer (k : Nat) (r : XResp)
  | fail (k : Nat)
  /-- `Close` clears the session id -/
  | forget

/-- One step. An object can be handed over only by someone who holds it. -/
def Xt.step (o : XOpts) (s : Xt) : XOp → Xt
  | .new c => { s with objs := s.objs ++ [⟨c, true⟩] }
  | .setShared i => if s.held i then { s with strong := some i, weak := none } else s
  | .setRef i => if s.held i then { s with strong := none, weak := some i } else s
  | .setNone => { s with strong := none, weak := none }
  | .drop i => { s with objs := s.objs.modify i (fun x => { x with kept := false }) }
  | .tick d => { s with objs := s.objs.map (fun x => { x with cred := x.cred.tick d }) }
  | .begin verb body => s.begin o verb body
  | .fetched k resp => s.fetched k resp
  | .send k => s.send o k
  | .answer k r => s.answer k r
  | .fail k => s.fail k
  | .forget => { s with session := [] }

def Xt.run (o : XOpts) (s : Xt) (ops : List XOp) : Xt := ops.foldl (Xt.step o) s

end Verif.Http
