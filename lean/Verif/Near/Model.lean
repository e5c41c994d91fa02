import Verif.InMemory.Model
import Verif.Whole.Model

/-!
A client and a server in one process, connected by a pair of in-memory transports: the calls of the client (Await/Model, Client/Calls), the pair (InMemory/Model) and
the dispatcher of the server (Server/Dispatch) as one system.

A call of the client that sends its request enters `SendRequest` of its transport (src/mcp/Client.cpp, e.g. 1374-1383; src/mcp/InMemoryTransport.cpp 220-259) with a
default-constructed id. Each request that comes to the server is handled by a thread of its own (src/mcp/InMemoryTransport.cpp 102-120), which runs `dispatchRequest`
(src/mcp/Server.cpp 1534-1536) and puts the answer into the queue of the client. An exception that is not a `std::exception` leaves this thread and ends the process, with
the client in it.

Simplified as in the parts. A dispatch is one step at some time between the arrival of the request and the answer; one that waits (`blocked`) changes nothing until it can go on,
and does not keep other threads from going on. Requests of the server to the client and the answers of the handlers of the client are steps of the pair. Both transports have
been started and have their handlers. The client is not destroyed.
-/

namespace Verif.Near

open Verif.Await Verif.Client Verif.Server
open Verif.Whole (asRequest asking)

variable {D H : Type} [DblFmt D]

/-- What the awaited future of the transport gives: src/mcp/InMemoryTransport.cpp 136-150 (a response), 246-257 (the peer is not connected), 203-214 (`Close`), and a promise
destroyed unset. -/
def seen : InMemory.Outcome D → Client.Outcome D
  | .response r => .resp r
  | .peerGone id => .resp ⟨id, none, some (mkErrorObj Code.internalError (lit "Peer not connected") none)⟩
  | .closed id => .resp ⟨.str id, none, some (mkErrorObj Code.internalError (lit "Transport closed") none)⟩
  | .broken => .threw

/-- The client, the pair of transports, the server. The client has side `false` of the pair. -/
structure World (D H : Type) where
  client : Sys (Self D) (Req D) (Client.Outcome D) (Option (Val D))
  /-- The futures of the transport that the requests of the calls got, in the order of sending. -/
  futs : List Nat
  net : InMemory.Net D
  srv : Srv D H
  /-- The process has been terminated. -/
  dead : Bool

/-- Both transports have their handlers and have been started. -/
def World.init (s0 : Self D) (srv : Srv D H) : World D H :=
  ⟨.init s0, [], (InMemory.Net.init true true).run [.start false, .start true], srv, false⟩

/-- What can happen. -/
inductive Op (D H : Type) where
  /-- The application calls the client. -/
  | call (api : Api D)
  /-- The thread of call `i` does the next thing. -/
  | go (i : Nat)
  /-- The caller of call `i` gives up the objects it passed. -/
  | drop (i : Nat)
  /-- Anything else that changes the client. -/
  | change (u : Self D → Self D)
  /-- The future of the `c`-th request of the calls is seen to be ready. -/
  | deliver (c : Nat)
  /-- A step of the pair. -/
  | wire (op : InMemory.Op D)
  /-- The thread of the `i`-th request in work at the server runs `dispatchRequest` and sends the answer. -/
  | serve (i : Nat) (env : Env D H)
  /-- The application that owns the server, or one of its workers. -/
  | own (op : SrvOp D H)

/-- Steps of the pair that belong to the calls of the client and to `serve`. -/
def reserved : InMemory.Op D → Bool
  | .send false _ => true
  | .reply true _ _ => true
  | _ => false

def World.go (w : World D H) (i : Nat) : World D H :=
  match asking w.client i with
  | some q =>
    if w.client.ub = false ∧ w.client.alive = true then
      { w with client := w.client.step (.go i), futs := w.futs ++ [w.net.a.tab.nextFut], net := w.net.step (.send false (asRequest q)) }
    else { w with client := w.client.step (.go i) }
  | none => { w with client := w.client.step (.go i) }

def World.deliver (w : World D H) (c : Nat) : World D H :=
  match w.futs[c]? with
  | some n =>
    match AMap.get w.net.a.tab.outcomes n with
    | some o => { w with client := w.client.step (.fill c (seen o)) }
    | none => w
  | none => w

/-- src/mcp/InMemoryTransport.cpp 102-120 with the handler of src/mcp/Server.cpp 1534-1536. -/
def World.serve (w : World D H) (i : Nat) (env : Env D H) : World D H :=
  match w.net.b.jobs[i]? with
  | none => w
  | some q =>
    match (dispatch env w.srv q).1 with
    | .answer r => { w with srv := (dispatch env w.srv q).2, net := w.net.step (.reply true i (.resp r)) }
    | .escaped => { w with srv := (dispatch env w.srv q).2, dead := true }
    | .blocked => w

def World.act (w : World D H) : Op D H → World D H
  | .call api => { w with client := w.client.step (.call (body api)) }
  | .go i => w.go i
  | .drop i => { w with client := w.client.step (.drop i) }
  | .change u => { w with client := w.client.step (.change u) }
  | .deliver n => w.deliver n
  | .wire op => if reserved op then w else { w with net := w.net.step op }
  | .serve i env => w.serve i env
  | .own op =>
    match op with
    | .request _ _ => w
    | op => { w with srv := w.srv.step op }

/-- A terminated process does nothing. -/
def World.step (w : World D H) (op : Op D H) : World D H := if w.dead then w else w.act op

def World.run (w : World D H) (ops : List (Op D H)) : World D H := ops.foldl World.step w

end Verif.Near
