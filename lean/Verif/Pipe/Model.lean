import Verif.Ask.Model
import Verif.Whole.Model

/-!
A server and a client that talk over standard input and output, in the other direction than in Whole/Model: the calls of the server to its client (Await/ServerCalls), the two
stdio transports and their pipes (Stdio/Duplex) and the request handler of the client (Client/Requests) as one system.

A call of the server that sends its request enters `SendRequest` of its transport (src/mcp/Server.cpp, e.g. 2343-2345), with the id the caller gave
(`RequestCreateMessageWithId`, src/mcp/Server.cpp 2528) or a default-constructed one; the future it gets is the one it waits for. The request handler of the client's transport is
`onRequest` (src/mcp/Client.cpp 664-1073, 1086-1088), run by the thread that read the request; its answer is queued by that thread (src/mcp/StdioTransport.cpp 990-996). An
exception that is not a `std::exception` leaves the reader thread and ends the client process.

Simplified as in the parts. The handling of a request is one step at some time between its arrival and the queueing of the answer; one that waits (`blocked`) changes nothing until
it can go on. Handlers of the client do not send requests from within it (on stdio they would wait for ever, C94); other threads of the client may send requests and notifications at
any time. Handlers of the server are programs as in Stdio/Duplex. What notifications do to the server is the step `change`. The server is not destroyed.
-/

namespace Verif.Pipe

open Verif.Await Verif.Client Verif.Server Verif.Duplex
open Verif.Serve (Prog)
open Verif.Ask (asRequest asking)
open Verif.Whole (seen reserved answer)

variable {D H : Type} [DblFmt D]

/-- The server, the transports, the client. The server has side `false` of the pair. -/
structure World (D H : Type) where
  server : Sys (SSelf D) (SReq D) (Client.Outcome D) (SOut D)
  /-- The futures of the transport that the requests of the calls got, in the order of sending. -/
  futs : List Nat
  pair : Pair D
  cli : Cli D H
  /-- The client process has been terminated. -/
  dead : Bool

def World.init (s0 : SSelf D) (cli : Cli D H) : World D H := ⟨.init s0, [], .init, cli, false⟩

/-- What can happen. -/
inductive Op (D H : Type) where
  /-- The application calls the server. -/
  | call (api : SApi D)
  /-- The thread of call `i` does the next thing. -/
  | go (i : Nat)
  /-- The caller of call `i` gives up the objects it passed. -/
  | drop (i : Nat)
  /-- Anything else that changes the server. -/
  | change (u : SSelf D → SSelf D)
  /-- The future of the `c`-th request of the calls is seen to be ready. -/
  | deliver (c : Nat)
  /-- A step of the transport on one side. -/
  | wire (y : Bool) (op : EndOp D)
  /-- The reader thread of the client runs the request handler and queues the answer. -/
  | serve (env : CliEnv D H)
  /-- The application that owns the client, or one of its workers. -/
  | own (op : CliOp D H)

/-- The settings, with the handlers of the server. What the client's side starts is put in its place by `serve`. -/
abbrev Cfg (D : Type) := Whole.Cfg D

def World.go (w : World D H) (i : Nat) : World D H :=
  match asking w.server i with
  | some q =>
    if w.server.ub = false ∧ w.server.alive = true then
      { w with server := w.server.step (.go i), futs := w.futs ++ [w.pair.a.p.nextFut], pair := { w.pair with a := w.pair.a.check (asRequest q) } }
    else { w with server := w.server.step (.go i) }
  | none => { w with server := w.server.step (.go i) }

def World.deliver (w : World D H) (c : Nat) : World D H :=
  match w.futs[c]? with
  | some n =>
    match AMap.get w.pair.a.p.outcomes n with
    | some o => { w with server := w.server.step (.fill c (seen o)) }
    | none => w
  | none => w

def World.serve (w : World D H) (env : CliEnv D H) : World D H :=
  match w.pair.b.job with
  | none => w
  | some j =>
    match (onRequest env w.cli j.req).1 with
    | .answer r => { w with cli := (onRequest env w.cli j.req).2, pair := { w.pair with b := answer w.pair.b (.resp r) } }
    | .escaped => { w with cli := (onRequest env w.cli j.req).2, dead := true }
    | .blocked => w

def World.step (c : Cfg D) (w : World D H) : Op D H → World D H
  | .call api => { w with server := w.server.step (.call (sbody api)) }
  | .go i => w.go i
  | .drop i => { w with server := w.server.step (.drop i) }
  | .change u => { w with server := w.server.step (.change u) }
  | .deliver n => w.deliver n
  | .wire y op => if reserved y op || (y && w.dead) then w else { w with pair := w.pair.step c.duplex (y, op) }
  | .serve env => if w.dead then w else w.serve env
  | .own op =>
    match op with
    | .request _ _ => w
    | op => if w.dead then w else { w with cli := w.cli.step op }

def World.run (c : Cfg D) (w : World D H) (ops : List (Op D H)) : World D H := ops.foldl (World.step c) w

end Verif.Pipe
