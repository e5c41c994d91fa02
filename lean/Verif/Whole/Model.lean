import Verif.Stdio.Duplex
import Verif.Await.Model

/-!
A client and a server that talk over standard input and output: the calls of the client (Await/Model, Client/Calls), the two stdio transports and their
pipes (Stdio/Duplex) and the dispatcher of the server (Server/Dispatch) as one system.

A call of the client that sends its request enters `SendRequest` of its transport (src/mcp/Client.cpp, e.g. 1374-1383) with a default-constructed id;
the future it gets is the one it waits for. The request handler of the server transport is `dispatchRequest` (src/mcp/Server.cpp 1534-1536), run by the
thread that read the request; its answer is queued by that thread (src/mcp/StdioTransport.cpp 990-996). An exception that is not a `std::exception` leaves
the reader thread and ends the server process.

Simplified as in the parts. A dispatch is one step at some time between the arrival of the request and the queueing of the answer; one that waits
(`blocked`) changes nothing until it can go on. Handlers of the server do not send requests from within a dispatch (on stdio they would wait for ever,
C94); other threads of the server may send requests and notifications at any time. Handlers of the client are programs as in Stdio/Duplex. What
notifications do to the client is the step `change`, what they do to a dispatch under way is in `Env`. The client is not destroyed.
-/

namespace Verif.Whole

open Verif.Await Verif.Client Verif.Server Verif.Duplex
open Verif.Serve (Prog)

variable {D H : Type} [DblFmt D]

/-- The request of a call as it is given to `SendRequest`; `request->id` is a default-constructed `JSONRPCId`, the empty string
(include/mcp/JSONRPCTypes.h 73, 102-108). -/
def asRequest (q : Req D) : Request D := ⟨.str [], q.method, q.params⟩

/-- What the awaited future of the transport gives: src/mcp/StdioTransport.cpp 967-970 (time limit), 1134-1138 (`Close`), 1158-1161 (not connected; the id
made there is not kept, no call looks at it), and a promise destroyed unset. -/
def seen : Stdio.Outcome D → Client.Outcome D
  | .response r => .resp r
  | .timeout id _ => .resp ⟨.str id, none, some (mkErrorObj Code.internalError (lit "Request timeout") none)⟩
  | .closed id => .resp ⟨.str id, none, some (mkErrorObj Code.internalError (lit "Transport closed") none)⟩
  | .notConnected => .resp ⟨.str [], none, some (mkErrorObj Code.internalError (lit "Transport not connected") none)⟩
  | .broken => .threw

/-- The client, the transports, the server. The client has side `false` of the pair. -/
structure World (D H : Type) where
  client : Sys (Self D) (Req D) (Client.Outcome D) (Option (Val D))
  /-- The futures of the transport that the requests of the calls got, in the order of sending. -/
  futs : List Nat
  pair : Pair D
  srv : Srv D H
  /-- The server process has been terminated. -/
  dead : Bool

def World.init (s0 : Self D) (srv : Srv D H) : World D H := ⟨.init s0, [], .init, srv, false⟩

/-- What can happen. -/
inductive Op (D H : Type) where
  /-- The application calls the client. -/
  | call (api : Api D)
  /-- The thread of call `i` does the next thing. -/
  | go (i : Nat)
  /-- The caller of call `i` gives up the objects it passed. -/
  | drop (i : Nat)
  /-- Anything else that changes the client. -/
  | change (u : Self D → Self D)
  /-- The future of the `c`-th request of the calls is seen to be ready. -/
  | deliver (c : Nat)
  /-- A step of the transport on one side. -/
  | wire (y : Bool) (op : EndOp D)
  /-- The reader thread of the server runs `dispatchRequest` and queues the answer. -/
  | serve (env : Env D H)
  /-- The application that owns the server, or one of its workers. -/
  | own (op : SrvOp D H)

/-- The request call `i` is about to send. -/
def asking (c : Sys (Self D) (Req D) (Client.Outcome D) (Option (Val D))) (i : Nat) : Option (Req D) :=
  match c.calls[i]? with
  | some x => match x.st with | .run (.ask q _) => some q | _ => none
  | none => none

/-- Steps of a transport that belong to the calls of the client and to `serve`. -/
def reserved : Bool → EndOp D → Bool
  | false, .check _ => true
  | true, .work _ => true
  | _, _ => false

/-- The reader thread of one side goes on with the answer of its handler. -/
def answer (e : End D) (o : HandlerOutcome D) : End D :=
  match e.job with
  | some j => ({ e with job := some { j with prog := .done o, wait := none } } : End D).work false
  | none => e

/-- The settings: the handlers of the client and the content limits. What the server's side starts is put in its place by `serve`. -/
structure Cfg (D : Type) where
  handler : Request D → Prog D
  max : Bool → Nat

def Cfg.duplex (c : Cfg D) : Duplex.Cfg D := ⟨fun y q => if y then .done .nul else c.handler q, c.max⟩

def World.go (w : World D H) (i : Nat) : World D H :=
  match asking w.client i with
  | some q =>
    if w.client.ub = false ∧ w.client.alive = true then
      { w with client := w.client.step (.go i), futs := w.futs ++ [w.pair.a.p.nextFut], pair := { w.pair with a := w.pair.a.check (asRequest q) } }
    else { w with client := w.client.step (.go i) }
  | none => { w with client := w.client.step (.go i) }

def World.deliver (w : World D H) (c : Nat) : World D H :=
  match w.futs[c]? with
  | some n =>
    match AMap.get w.pair.a.p.outcomes n with
    | some o => { w with client := w.client.step (.fill c (seen o)) }
    | none => w
  | none => w

def World.serve (w : World D H) (env : Env D H) : World D H :=
  match w.pair.b.job with
  | none => w
  | some j =>
    match (dispatch env w.srv j.req).1 with
    | .answer r => { w with srv := (dispatch env w.srv j.req).2, pair := { w.pair with b := answer w.pair.b (.resp r) } }
    | .escaped => { w with srv := (dispatch env w.srv j.req).2, dead := true }
    | .blocked => w

def World.step (c : Cfg D) (w : World D H) : Op D H → World D H
  | .call api => { w with client := w.client.step (.call (body api)) }
  | .go i => w.go i
  | .drop i => { w with client := w.client.step (.drop i) }
  | .change u => { w with client := w.client.step (.change u) }
  | .deliver n => w.deliver n
  | .wire y op => if reserved y op || (y && w.dead) then w else { w with pair := w.pair.step c.duplex (y, op) }
  | .serve env => if w.dead then w else w.serve env
  | .own op =>
    match op with
    | .request _ _ => w
    | op => if w.dead then w else { w with srv := w.srv.step op }

def World.run (c : Cfg D) (w : World D H) (ops : List (Op D H)) : World D H := ops.foldl (World.step c) w

end Verif.Whole
