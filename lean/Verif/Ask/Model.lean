import Verif.Await.ServerCalls
import Verif.Near.Model

/-!
A server and a client in one process, connected by a pair of in-memory transports, in the other direction than in Near/Model: the calls of the server to its client
(Await/ServerCalls), the pair (InMemory/Model) and the request handler of the client (Client/Requests) as one system.

A call of the server that sends its request enters `SendRequest` of its transport (src/mcp/Server.cpp, e.g. 2343-2345; src/mcp/InMemoryTransport.cpp 220-259), with the id the
caller gave (`RequestCreateMessageWithId`, src/mcp/Server.cpp 2528) or a default-constructed one. Each request that comes to the client is handled by a thread of its own
(src/mcp/InMemoryTransport.cpp 102-120), which runs `onRequest` (src/mcp/Client.cpp 664-1073) and puts the answer into the queue of the server. An exception that is not a
`std::exception` leaves this thread and ends the process.

Simplified as in the parts. A dispatch is one step at some time between the arrival of the request and the answer; one that waits (`blocked`) changes nothing until it can go on,
and does not keep other threads from going on. Requests of the client to the server and their answers are steps of the pair. Both transports have been started and have their
handlers. The server is not destroyed.
-/

namespace Verif.Ask

open Verif.Await Verif.Client Verif.Server
open Verif.Near (seen reserved)

variable {D H : Type} [DblFmt D]

/-- The request the transport is given: the id of the caller, if there is one, is set, src/mcp/Server.cpp 2528. -/
def asRequest (q : SReq D) : Request D := ⟨.str (q.id.getD []), q.method, q.params⟩

/-- The server's side of its calls, the pair of transports, the client. The server has side `false` of the pair. -/
structure World (D H : Type) where
  server : Sys (SSelf D) (SReq D) (Client.Outcome D) (SOut D)
  /-- The futures of the transport that the requests of the calls got, in the order of sending. -/
  futs : List Nat
  net : InMemory.Net D
  cli : Cli D H
  /-- The process has been terminated. -/
  dead : Bool

/-- Both transports have their handlers and have been started. -/
def World.init (s0 : SSelf D) (cli : Cli D H) : World D H :=
  ⟨.init s0, [], (InMemory.Net.init true true).run [.start false, .start true], cli, false⟩

/-- What can happen. -/
inductive Op (D H : Type) where
  /-- The application, or a handler, calls the server. -/
  | call (api : SApi D)
  /-- The thread of call `i` does the next thing. -/
  | go (i : Nat)
  /-- The caller of call `i` gives up the objects it passed. -/
  | drop (i : Nat)
  /-- Anything else that changes the server. -/
  | change (u : SSelf D → SSelf D)
  /-- The future of the `c`-th request of the calls is seen to be ready. -/
  | deliver (c : Nat)
  /-- A step of the pair. -/
  | wire (op : InMemory.Op D)
  /-- The thread of the `i`-th request in work at the client runs `onRequest` and sends the answer. -/
  | serve (i : Nat) (env : CliEnv D H)
  /-- The application that owns the client, or one of its workers. -/
  | own (op : CliOp D H)

/-- The request that call `i` is about to send. -/
def asking (c : Sys (SSelf D) (SReq D) (Client.Outcome D) (SOut D)) (i : Nat) : Option (SReq D) :=
  match c.calls[i]? with
  | some x => match x.st with | .run (.ask q _) => some q | _ => none
  | none => none

def World.go (w : World D H) (i : Nat) : World D H :=
  match asking w.server i with
  | some q =>
    if w.server.ub = false ∧ w.server.alive = true then
      { w with server := w.server.step (.go i), futs := w.futs ++ [w.net.a.tab.nextFut], net := w.net.step (.send false (asRequest q)) }
    else { w with server := w.server.step (.go i) }
  | none => { w with server := w.server.step (.go i) }

def World.deliver (w : World D H) (c : Nat) : World D H :=
  match w.futs[c]? with
  | some n =>
    match AMap.get w.net.a.tab.outcomes n with
    | some o => { w with server := w.server.step (.fill c (seen o)) }
    | none => w
  | none => w

/-- src/mcp/InMemoryTransport.cpp 102-120 with the handler of src/mcp/Client.cpp 1086-1088. -/
def World.serve (w : World D H) (i : Nat) (env : CliEnv D H) : World D H :=
  match w.net.b.jobs[i]? with
  | none => w
  | some q =>
    match (onRequest env w.cli q).1 with
    | .answer r => { w with cli := (onRequest env w.cli q).2, net := w.net.step (.reply true i (.resp r)) }
    | .escaped => { w with cli := (onRequest env w.cli q).2, dead := true }
    | .blocked => w

def World.act (w : World D H) : Op D H → World D H
  | .call api => { w with server := w.server.step (.call (sbody api)) }
  | .go i => w.go i
  | .drop i => { w with server := w.server.step (.drop i) }
  | .change u => { w with server := w.server.step (.change u) }
  | .deliver n => w.deliver n
  | .wire op => if reserved op then w else { w with net := w.net.step op }
  | .serve i env => w.serve i env
  | .own op =>
    match op with
    | .request _ _ => w
    | op => { w with cli := w.cli.step op }

/-- A terminated process does nothing. -/
def World.step (w : World D H) (op : Op D H) : World D H := if w.dead then w else w.act op

def World.run (w : World D H) (ops : List (Op D H)) : World D H := ops.foldl World.step w

end Verif.Ask
