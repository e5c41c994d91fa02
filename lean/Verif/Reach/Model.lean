import Verif.Ask.Model
import Verif.Web.Model

/-!
A server and a client that talk over HTTP, in the other direction than in Web/Model: the calls of the server to its client (Await/ServerCalls), an `HTTPServer` and an
`HTTPTransport` (Http/Link) and the request handler of the client (Client/Requests) as one system.

An `HTTPServer` can be given to `Server::Start` as its transport (include/mcp/HTTPServer.hpp: it is an `ITransport` as well as an acceptor). A call of the server that sends its
request enters `SendRequest` (src/mcp/Server.cpp, e.g. 2343-2345; src/mcp/HTTPServer.cpp 1102-1137), with the id the caller gave (`RequestCreateMessageWithId`, src/mcp/Server.cpp
2528) or a default-constructed one. The request goes to the session that is the active one when `SendRequest` looks for it; without one the call is told so at once. The client gets
the request on an event stream; the thread of the stream runs `onRequest` (src/mcp/Client.cpp 664-1073, 1086-1088) from the router (src/mcp/HTTPTransport.cpp 458-501, 517-560) and
queues the answer to be posted. An exception that is not a `std::exception` leaves that thread and ends the client process.

Simplified as in the parts. The handling of an event is one step; one that waits (`blocked`) changes nothing until it can go on. Looking for the session and filing the promise are
two steps of `SendRequest`, queueing the text a third. Requests of the client and whatever else the transports do, other clients and other users of the server's transport
among it, are steps of the link. What notifications do to the server is the step `change`. The server is not destroyed.
-/

namespace Verif.Reach

open Verif.Await Verif.Client Verif.Server
open Verif.Http (Hs HsOp LinkOp LinkCfg HtHandlers)
open Verif.Ask (asRequest asking)
open Verif.Web (seen)

variable {D H : Type} [DblFmt D]

/-- A promise that a `SendRequest` of the server filed: which of the sends it was, the object of the session and the future there, and the request as it is sent. -/
structure Named (D : Type) where
  ticket : Nat
  obj : Nat
  fut : Nat
  req : Request D

/-- The promise a step files, src/mcp/HTTPServer.cpp 1114-1133. -/
def namedBy (s : Hs D) : HsOp D → Option (Named D)
  | .advance t =>
    match s.sends[t]? with
    | some (.found o (.request r)) => some ⟨t, o, ((s.objs[o]?).map (·.pend.nextFut)).getD 0, (s.withId r).1⟩
    | _ => none
  | _ => none

/-- All promises that were filed, in order. -/
def named (s : Hs D) : List (HsOp D) → List (Named D)
  | [] => []
  | op :: ops => (namedBy s op).toList ++ named (s.step op) ops

/-- The server, the transports, the client. -/
structure World (D H : Type) where
  server : Sys (SSelf D) (SReq D) (Client.Outcome D) (SOut D)
  /-- Which of the sends of the transport the requests of the calls are, in the order of sending, and what the transport was given. -/
  slots : List (Nat × Request D)
  link : Http.Link D
  cli : Cli D H
  /-- The client process has been terminated. -/
  dead : Bool

def World.init (s0 : SSelf D) (cli : Cli D H) : World D H := ⟨.init s0, [], .init, cli, false⟩

/-- What can happen. -/
inductive Op (D H : Type) where
  /-- The application calls the server. -/
  | call (api : SApi D)
  /-- The thread of call `i` does the next thing. -/
  | go (i : Nat)
  /-- The caller of call `i` gives up the objects it passed. -/
  | drop (i : Nat)
  /-- Anything else that changes the server. -/
  | change (u : SSelf D → SSelf D)
  /-- The future of the `k`-th request of the calls is seen to be ready. -/
  | deliver (k : Nat)
  /-- A step of the transports. -/
  | wire (op : LinkOp D)
  /-- An event reaches the client, whose thread runs the handlers. -/
  | heed (j : Nat) (env : CliEnv D H) (notes errors : Bool)
  /-- The application that owns the client, or one of its workers. -/
  | own (op : CliOp D H)

/-- What the future of a send holds: the error for want of a session, src/mcp/HTTPServer.cpp 1106-1112, or the outcome of the promise that was filed. -/
def future (l : Http.Link D) (t : Nat × Request D) : Option (Http.SOut D) :=
  match l.hs.sends[t.1]? with
  | some .refused => some (.resp ⟨t.2.id, none, some (mkErrorObj Code.internalError (lit "No active HTTP session") none)⟩)
  | _ =>
    match (named Hs.init l.srvDid).find? (fun m => decide (m.ticket = t.1)) with
    | some m =>
      match l.hs.objs[m.obj]? with
      | some x => AMap.get x.pend.outcomes m.fut
      | none => none
    | none => none

/-- The text of an event that the client can get now. -/
def heard (l : Http.Link D) (j : Nat) : Option Bytes :=
  match l.hs.events[j]? with
  | some (k, (_, payload), _) => if k ∈ l.mine ∧ j ∉ l.taken ∧ l.ht.sse = true ∧ l.ht.connected = true then some payload else none
  | none => none

/-- The request a text asks the handler for, src/mcp/HTTPTransport.cpp 467-474. -/
def asked (notes errors : Bool) (payload : Bytes) : Option (Request D) :=
  (route (HtHandlers.wrap ⟨none, notes, errors⟩ : Handlers D) payload).requestsHandled.head?

/-- What the client's transport does, or its application. -/
def ofClient : LinkOp D → Bool
  | .serve .. => false
  | .world _ => false
  | _ => true

def isEvent : LinkOp D → Bool
  | .event .. => true
  | _ => false

def World.go (c : LinkCfg) (w : World D H) (i : Nat) : World D H :=
  match asking w.server i with
  | some q =>
    if w.server.ub = false ∧ w.server.alive = true then
      { w with server := w.server.step (.go i), slots := w.slots ++ [(w.link.hs.sends.length, asRequest q)], link := w.link.step c (.world (.take (.request (asRequest q)))) }
    else { w with server := w.server.step (.go i) }
  | none => { w with server := w.server.step (.go i) }

def World.deliver (w : World D H) (k : Nat) : World D H :=
  match w.slots[k]? with
  | some t =>
    match future w.link t with
    | some o => { w with server := w.server.step (.fill k (seen o)) }
    | none => w
  | none => w

def World.heed (c : LinkCfg) (w : World D H) (j : Nat) (env : CliEnv D H) (notes errors : Bool) : World D H :=
  match heard w.link j with
  | none => w
  | some payload =>
    match asked notes errors payload with
    | none => { w with link := w.link.step c (.event ⟨none, notes, errors⟩ j) }
    | some q =>
      match (onRequest env w.cli q).1 with
      | .answer r => { w with cli := (onRequest env w.cli q).2, link := w.link.step c (.event ⟨some (fun _ => .resp r), notes, errors⟩ j) }
      | .escaped => { w with cli := (onRequest env w.cli q).2, dead := true }
      | .blocked => w

def World.step (c : LinkCfg) (w : World D H) : Op D H → World D H
  | .call api => { w with server := w.server.step (.call (sbody api)) }
  | .go i => w.go c i
  | .drop i => { w with server := w.server.step (.drop i) }
  | .change u => { w with server := w.server.step (.change u) }
  | .deliver k => w.deliver k
  | .wire op => if isEvent op || (ofClient op && w.dead) then w else { w with link := w.link.step c op }
  | .heed j env n e => if w.dead then w else w.heed c j env n e
  | .own op =>
    match op with
    | .request _ _ => w
    | op => if w.dead then w else { w with cli := w.cli.step op }

def World.run (c : LinkCfg) (w : World D H) (ops : List (Op D H)) : World D H := ops.foldl (World.step c) w

end Verif.Reach
