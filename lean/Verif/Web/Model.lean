import Verif.Http.Link
import Verif.Whole.Model

/-!
A client and a server that talk over HTTP: the calls of the client (Await/Model, Client/Calls), the client transport and the HTTP server (Http/Link) and the
dispatcher of the server (Server/Dispatch) as one system.

A call of the client that sends its request enters `SendRequest` of src/mcp/HTTPTransport.cpp (842-923) with a default-constructed id. The request handler
of the HTTP server is `dispatchRequest` (src/mcp/Server.cpp 1534-1536, or `HandleJSONRPC`, 2771-2777); it is run by a thread of `std::async` while the
coroutine of the connection waits for it (src/mcp/HTTPServer.cpp 938-949). An exception that is not a `std::exception` comes out of the future, leaves the coroutine, is dropped by
`detached` (993-995) and ends the connection without an answer.

Simplified as in the parts. The thread of a call is inside `SendRequest` until its request is filed; the model lets it go on to look at a future that is not there yet
and find it not ready. A dispatch is one step; one that waits (`blocked`) changes nothing until it can go on. What notifications do to the client is the step
`change`, what they do to a dispatch under way is in `Env`. Other clients of the server are steps of `own` and of `wire (.world _)`. The client is not destroyed.
-/

namespace Verif.Web

open Verif.Await Verif.Client Verif.Server Verif.Http
open Verif.Whole (asRequest asking)

variable {D H : Type} [DblFmt D]

/-- Where the request of a call is: `SendRequest` found the transport connected and is about to file it (the number of the ticket), or it gave this future. -/
inductive Slot where
  | ticket (t : Nat)
  | fut (n : Nat)
  deriving DecidableEq

/-- What the awaited future of the transport gives: a response or one made by the transport, or the error of a promise destroyed unset. -/
def seen : SOut D → Client.Outcome D
  | .resp r => .resp r
  | .broken => .threw

/-- The client, the link, the server. -/
structure World (D H : Type) where
  client : Sys (Self D) (Req D) (Client.Outcome D) (Option (Val D))
  /-- Where the requests of the calls are, in the order of sending. -/
  slots : List Slot
  link : Http.Link D
  srv : Srv D H
  /-- The flights whose connection was ended by an exception. -/
  ended : List Nat

def World.init (s0 : Self D) (srv : Srv D H) : World D H := ⟨.init s0, [], .init, srv, []⟩

/-- What can happen. -/
inductive Op (D H : Type) where
  /-- The application calls the client. -/
  | call (api : Api D)
  /-- The thread of call `i` does the next thing. -/
  | go (i : Nat)
  /-- The caller of call `i` gives up the objects it passed. -/
  | drop (i : Nat)
  /-- Anything else that changes the client. -/
  | change (u : Self D → Self D)
  /-- The future of the `c`-th request of the calls is seen to be ready. -/
  | deliver (c : Nat)
  /-- A step of the transport, the network or the sessions of the server. -/
  | wire (op : LinkOp D)
  /-- The server serves a POST of this client. -/
  | serve (i : Nat) (now : Int) (authorization : Bytes) (env : Env D H) (notes errors : Bool) (drawn : Bytes)
  /-- The application that owns the server, one of its workers, or another client. -/
  | own (op : SrvOp D H)

/-- The server's request handler, `dispatchRequest`; what it gives when it does not return plays no part. -/
def handler (env : Env D H) (srv : Srv D H) : Option TokenInfo → Request D → HandlerOutcome D := fun _ q =>
  match (dispatch env srv q).1 with
  | .answer r => .resp r
  | _ => .nul

/-- What serving flight `i` comes to. -/
def World.served (c : LinkCfg) (w : World D H) (i : Nat) (now : Int) (authorization : Bytes) (env : Env D H) (notes errors : Bool) (drawn : Bytes) : Option (Served D) :=
  if i ∈ w.ended then none else
  match w.link.flights[i]? with
  | some ⟨_, _, sent, none⟩ =>
    some (Http.serve c.loopback c.server c.auth now (fun tok => ⟨some (handler env w.srv tok), notes, errors⟩) w.link.hs drawn (c.posted sent authorization))
  | _ => none

def World.go (c : LinkCfg) (w : World D H) (i : Nat) : World D H :=
  match asking w.client i with
  | some q =>
    if w.client.ub = false ∧ w.client.alive = true then
      { w with
        client := w.client.step (.go i)
        slots := w.slots ++ [if w.link.ht.connected then .ticket w.link.ht.tickets.length else .fut w.link.ht.tab.nextFut]
        link := w.link.step c (.send (asRequest q)) }
    else { w with client := w.client.step (.go i) }
  | none => { w with client := w.client.step (.go i) }

def World.deliver (w : World D H) (c : Nat) : World D H :=
  match w.slots[c]? with
  | some (.fut n) =>
    match AMap.get w.link.ht.tab.outcomes n with
    | some o => { w with client := w.client.step (.fill c (seen o)) }
    | none => w
  | _ => w

/-- The rest of `SendRequest` for the ticket `t`. -/
def World.file (c : LinkCfg) (w : World D H) (t : Nat) : World D H :=
  match w.link.ht.tickets[t]? with
  | some (some _) =>
    { w with slots := w.slots.map (fun s => if s = .ticket t then .fut w.link.ht.tab.nextFut else s), link := w.link.step c (.file t) }
  | _ => w

def World.serve (c : LinkCfg) (w : World D H) (i : Nat) (now : Int) (authorization : Bytes) (env : Env D H) (notes errors : Bool) (drawn : Bytes) : World D H :=
  match w.served c i now authorization env notes errors drawn with
  | none => w
  | some out =>
    match out.handled with
    | [] => { w with link := w.link.step c (.serve i now authorization (handler env w.srv) notes errors drawn) }
    | (q, _) :: _ =>
      match (dispatch env w.srv q).1 with
      | .answer _ =>
        { w with srv := (dispatch env w.srv q).2, link := w.link.step c (.serve i now authorization (handler env w.srv) notes errors drawn) }
      | .escaped => { w with srv := (dispatch env w.srv q).2, link := w.link.server out.ops, ended := w.ended ++ [i] }
      | .blocked => w

def World.wire (c : LinkCfg) (w : World D H) : LinkOp D → World D H
  | .send _ => w
  | .serve .. => w
  | .file t => w.file c t
  | op => { w with link := w.link.step c op }

def World.step (c : LinkCfg) (w : World D H) : Op D H → World D H
  | .call api => { w with client := w.client.step (.call (body api)) }
  | .go i => w.go c i
  | .drop i => { w with client := w.client.step (.drop i) }
  | .change u => { w with client := w.client.step (.change u) }
  | .deliver n => w.deliver n
  | .wire op => w.wire c op
  | .serve i now a env n e d => w.serve c i now a env n e d
  | .own op => { w with srv := w.srv.step op }

def World.run (c : LinkCfg) (w : World D H) (ops : List (Op D H)) : World D H := ops.foldl (World.step c) w

end Verif.Web
