import Verif.Http.Server
import Verif.Http.Transport

/-!
A client transport (src/mcp/HTTPTransport.cpp, model `Ht`) and a server (src/mcp/HTTPServer.cpp, models `serve` and `Hs`) put together.

A POST of the client is a flight: it is sent, served at most once, and its response arrives at the client or is lost (the exchange then
fails). The client opens event streams (517-735) and gets what the server wrote to them, each event at most once, in any order. The network
delivers headers and bodies as they are: HTTP itself and TLS are not modelled. A request is served in one step, so handlers of the server do
not overlap here; everything else the server does (its own calls, other clients, `Stop`) is a step of the world. The DELETE of `Close` is
left to the world as well. That the answer to a request for an event stream repeats the session id asked for, and that the client then takes it
(613-620), is left out: it changes nothing as long as the session is the same. The server has a request handler; which one, and the
Authorization header of the client, are parameters of the step. The client runs the exchange of a request of its own until its end, as `Ht` does.
-/

namespace Verif.Http

variable {D : Type}

/-- The settings of both sides; `host` is the Host header the client sends, `stream` the path of its event stream (169-174). -/
structure LinkCfg where
  client : HtOpts
  host : Bytes
  stream : Bytes
  server : SrvOpts
  auth : AuthCfg
  loopback : Bytes → Bool

/-- A POST of the client: the number of the post in the client, what it is for, what was sent, and the reply once it is served (`some none`
when an exception ended the connection). -/
structure Flight where
  post : Nat
  what : PostFor
  sent : Sent
  reply : Option (Option Reply)

/-- The request the server reads, HTTPTransport.cpp 309-329 and 346-364. -/
def LinkCfg.posted (c : LinkCfg) (w : Sent) (authorization : Bytes) : HttpReq :=
  ⟨if w.delete then .delete else .post, w.path, c.host, [], authorization, w.session, if c.client.streamable then currentVersion else [], w.body⟩

/-- The request for an event stream, HTTPTransport.cpp 572-586. -/
def LinkCfg.listens (c : LinkCfg) (session authorization : Bytes) : HttpReq :=
  ⟨.get, c.stream, c.host, [], authorization, session, currentVersion, []⟩

/-- Both sides. `did` and `srvDid` are what was done to each of them; `handled` what the request handler of the server was given by this client and
said, by post; `replied` what the request handler of the client was given and said; `mine` the event streams of the client; `taken` the
events it got. -/
structure Link (D : Type) where
  ht : Ht D
  hs : Hs D
  flights : List Flight
  did : List (HtOp D)
  srvDid : List (HsOp D)
  handled : List (Nat × Request D × HandlerOutcome D)
  replied : List (Request D × HandlerOutcome D)
  mine : List Nat
  taken : List Nat

def Link.init : Link D := ⟨Ht.init, Hs.init, [], [], [], [], [], [], []⟩

section steps
variable [DblFmt D]

/-- Something is done to the client. -/
def Link.client (c : LinkCfg) (s : Link D) (op : HtOp D) : Link D := { s with ht := s.ht.step c.client op, did := s.did ++ [op] }

/-- Things are done to the server. -/
def Link.server (s : Link D) (ops : List (HsOp D)) : Link D := { s with hs := s.hs.run ops, srvDid := s.srvDid ++ ops }

/-- What the handlers of the client are given by a text, and say. -/
def clientReplies (h : HtHandlers D) (json : Bytes) : List (Request D × HandlerOutcome D) :=
  (route h.wrap json).requestsHandled.filterMap (fun r => h.wrap.request.map (fun f => (r, f r)))

/-- A POST is sent. -/
def Link.begin (c : LinkCfg) (s : Link D) (k : Nat) : Link D :=
  match s.ht.io, s.ht.posts[k]? with
  | .running, some (.queued p body) =>
    { s.client c (.begin k) with
      flights := s.flights ++ [⟨k, p, ⟨false, c.client.pathFor p, if c.client.streamable then s.ht.session else [], body⟩, none⟩] }
  | _, _ => s

/-- The server serves a POST. -/
def Link.serve (c : LinkCfg) (s : Link D) (i : Nat) (now : Int) (authorization : Bytes) (f : Option TokenInfo → Request D → HandlerOutcome D)
    (notes errors : Bool) (drawn : Bytes) : Link D :=
  match s.flights[i]? with
  | some ⟨k, p, w, none⟩ =>
    let out := Http.serve c.loopback c.server c.auth now (fun tok => ⟨some (f tok), notes, errors⟩) s.hs drawn (c.posted w authorization)
    { s.server out.ops with
      flights := s.flights.set i ⟨k, p, w, some out.reply⟩
      handled := s.handled ++ out.handled.map (fun x => (k, x.1, f x.2 x.1)) }
  | _ => s

/-- The end of the exchange of a flight at the client. -/
def Link.ended (c : LinkCfg) (s : Link D) (h : HtHandlers D) (k : Nat) (body sid : Bytes) : Link D :=
  match s.ht.io, s.ht.posts[k]? with
  | .running, some (.sent (.request _ _)) => { s.client c (.finish h k body sid) with replied := s.replied ++ clientReplies h body }
  | .running, some (.sent _) => s.client c (.finish h k body sid)
  | _, _ => s

/-- The reply arrives. -/
def Link.arrive (c : LinkCfg) (s : Link D) (h : HtHandlers D) (i : Nat) : Link D :=
  match s.flights[i]? with
  | some ⟨k, _, _, some (some r)⟩ => s.ended c h k r.body r.session
  | _ => s

/-- The exchange fails. -/
def Link.lose (c : LinkCfg) (s : Link D) (h : HtHandlers D) (i : Nat) : Link D :=
  match s.flights[i]? with
  | some ⟨k, _, _, _⟩ => s.ended c h k [] []
  | none => s

/-- The client asks for an event stream. -/
def Link.listen (c : LinkCfg) (s : Link D) (now : Int) (authorization : Bytes) (f : Option TokenInfo → Request D → HandlerOutcome D)
    (notes errors : Bool) (drawn : Bytes) : Link D :=
  if s.ht.sse && !s.ht.session.isEmpty then
    let out := Http.serve c.loopback c.server c.auth now (fun tok => ⟨some (f tok), notes, errors⟩) s.hs drawn (c.listens s.ht.session authorization)
    { s.server out.ops with mine := if (s.hs.run out.ops).streams.length = s.hs.streams.length + 1 then s.mine ++ [s.hs.streams.length] else s.mine }
  else s

/-- An event reaches the client. -/
def Link.event (c : LinkCfg) (s : Link D) (h : HtHandlers D) (j : Nat) : Link D :=
  match s.hs.events[j]? with
  | some (k, (_, payload), _) =>
    if k ∈ s.mine ∧ j ∉ s.taken ∧ s.ht.sse = true ∧ s.ht.connected = true then
      { s.client c (.event h payload) with taken := s.taken ++ [j], replied := s.replied ++ clientReplies h payload }
    else s
  | none => s

inductive LinkOp (D : Type) where
  | start
  | send (r : Request D)
  | file (t : Nat)
  | note (n : Notification D)
  | begin (k : Nat)
  | failEarly (h : HtHandlers D) (k : Nat)
  | close
  | serve (i : Nat) (now : Int) (authorization : Bytes) (f : Option TokenInfo → Request D → HandlerOutcome D) (notes errors : Bool) (drawn : Bytes)
  | arrive (h : HtHandlers D) (i : Nat)
  | lose (h : HtHandlers D) (i : Nat)
  | listen (now : Int) (authorization : Bytes) (f : Option TokenInfo → Request D → HandlerOutcome D) (notes errors : Bool) (drawn : Bytes)
  | event (h : HtHandlers D) (j : Nat)
  | world (op : HsOp D)

def Link.step (c : LinkCfg) (s : Link D) : LinkOp D → Link D
  | .start => s.client c .start
  | .send r => s.client c (.send r)
  | .file t => s.client c (.file t)
  | .note n => s.client c (.note n)
  | .begin k => s.begin c k
  | .failEarly h k => s.client c (.failEarly h k)
  | .close => s.client c .close
  | .serve i now a f n e d => s.serve c i now a f n e d
  | .arrive h i => s.arrive c h i
  | .lose h i => s.lose c h i
  | .listen now a f n e d => s.listen c now a f n e d
  | .event h j => s.event c h j
  | .world op => s.server [op]

def Link.run (c : LinkCfg) (s : Link D) (ops : List (LinkOp D)) : Link D := ops.foldl (Link.step c) s

end steps

end Verif.Http
