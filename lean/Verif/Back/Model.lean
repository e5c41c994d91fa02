import Verif.Ask.Model
import Verif.Share.Model

/-!
A server and a client in two processes, connected by a pair of shared-memory transports, in the other direction than in Share/Model: the calls of the server to its client
(Await/ServerCalls), the pair (SharedMemory/Model) and the request handler of the client (Client/Requests) as one system. Either of the two may be the side that creates the
queues: `x` is the side of the server.

A call of the server that sends its request enters `SendRequest` of its transport (src/mcp/Server.cpp, e.g. 2343-2345; src/mcp/SharedMemoryTransport.cpp 351-434), with the id the
caller gave (`RequestCreateMessageWithId`, src/mcp/Server.cpp 2528) or a default-constructed one. The request is refused there at once, or goes on to get its future and, if it has
none, its id in a later step. Each request that comes to the client is handled by a thread of its own (src/mcp/SharedMemoryTransport.cpp 99-117), which runs `onRequest`
(src/mcp/Client.cpp 664-1073) and tries to put the answer into the queue of the server. An exception that is not a `std::exception` leaves this thread and ends the process of the
client; the queues and the server stay.

Simplified as in the parts. A dispatch is one step at some time between the arrival of the request and the answer; one that waits (`blocked`) changes nothing until it can go on,
and does not keep other threads from going on. Requests of the client to the server and the answers of the handlers of the server are steps of the pair. Both transports have
their handlers and have been started, the creator first. Neither object is destroyed.
-/

namespace Verif.Back

open Verif.Await Verif.Client Verif.Server
open Verif.Ask (asRequest asking)
open Verif.Share (seen actor reserved)

variable {D H : Type} [DblFmt D]

/-- The calls of the server, the pair of transports, the client. -/
structure World (D H : Type) where
  server : Sys (SSelf D) (SReq D) (Client.Outcome D) (SOut D)
  /-- The futures of the transport that the requests of the calls got, in the order of sending; `none` before the promise is filed. -/
  futs : List (Option Nat)
  /-- Which of the requests the tickets of the transport belong to. -/
  waits : List Nat
  net : Shm.Net D
  cli : Cli D H
  /-- The process of the client has been terminated. -/
  dead : Bool

/-- Both transports have their handlers and have been started. -/
def World.init (c : Shm.Cfg) (s0 : SSelf D) (cli : Cli D H) : World D H :=
  ⟨.init s0, [], [], (Shm.Net.init true true).run c [.start false, .start true], cli, false⟩

/-- What can happen. -/
inductive Op (D H : Type) where
  /-- The application, or a handler, calls the server. -/
  | call (api : SApi D)
  /-- The thread of call `i` does the next thing. -/
  | go (i : Nat)
  /-- The caller of call `i` gives up the objects it passed. -/
  | drop (i : Nat)
  /-- Anything else that changes the server. -/
  | change (u : SSelf D → SSelf D)
  /-- The future of the `k`-th request of the calls is seen to be ready. -/
  | deliver (k : Nat)
  /-- The `i`-th request that has passed the check of `SendRequest` gets its future. -/
  | file (i : Nat)
  /-- Another step of the pair. -/
  | wire (op : Shm.Op D)
  /-- The thread of the `i`-th request in work at the client runs `onRequest` and sends the answer. -/
  | serve (i : Nat) (env : CliEnv D H)
  /-- The application that owns the client, or one of its workers. -/
  | own (op : CliOp D H)

/-- `SendRequest` is entered: src/mcp/SharedMemoryTransport.cpp 355-363. -/
def World.go (c : Shm.Cfg) (x : Bool) (w : World D H) (i : Nat) : World D H :=
  match asking w.server i with
  | some q =>
    if w.server.ub = false ∧ w.server.alive = true then
      if (w.net.get x).connected then
        { w with server := w.server.step (.go i), futs := w.futs ++ [none], waits := w.waits ++ [w.futs.length], net := w.net.step c (.send x (asRequest q)) }
      else
        { w with server := w.server.step (.go i), futs := w.futs ++ [some (w.net.get x).tab.nextFut], net := w.net.step c (.send x (asRequest q)) }
    else { w with server := w.server.step (.go i) }
  | none => { w with server := w.server.step (.go i) }

/-- src/mcp/SharedMemoryTransport.cpp 364-405. -/
def World.file (c : Shm.Cfg) (x : Bool) (w : World D H) (i : Nat) : World D H :=
  match w.waits[i]? with
  | some k => { w with futs := w.futs.set k (some (w.net.get x).tab.nextFut), waits := w.waits.eraseIdx i, net := w.net.step c (.file x i) }
  | none => w

def World.deliver (x : Bool) (w : World D H) (k : Nat) : World D H :=
  match w.futs[k]? with
  | some (some n) =>
    match AMap.get (w.net.get x).tab.outcomes n with
    | some o => { w with server := w.server.step (.fill k (seen o)) }
    | none => w
  | _ => w

/-- src/mcp/SharedMemoryTransport.cpp 99-117 with the handler of src/mcp/Client.cpp 1086-1088. -/
def World.serve (c : Shm.Cfg) (x : Bool) (w : World D H) (i : Nat) (env : CliEnv D H) : World D H :=
  match (w.net.get (!x)).jobs[i]? with
  | none => w
  | some q =>
    match (onRequest env w.cli q).1 with
    | .answer r => { w with cli := (onRequest env w.cli q).2, net := w.net.step c (.reply (!x) i (.resp r)) }
    | .escaped => { w with cli := (onRequest env w.cli q).2, dead := true }
    | .blocked => w

/-- A terminated process does nothing. -/
def World.step (c : Shm.Cfg) (x : Bool) (w : World D H) : Op D H → World D H
  | .call api => { w with server := w.server.step (.call (sbody api)) }
  | .go i => w.go c x i
  | .drop i => { w with server := w.server.step (.drop i) }
  | .change u => { w with server := w.server.step (.change u) }
  | .deliver k => w.deliver x k
  | .file i => w.file c x i
  | .wire op => if reserved x op || (w.dead && actor op != x) then w else { w with net := w.net.step c op }
  | .serve i env => if w.dead then w else w.serve c x i env
  | .own op =>
    if w.dead then w else
      match op with
      | .request _ _ => w
      | op => { w with cli := w.cli.step op }

def World.run (c : Shm.Cfg) (x : Bool) (w : World D H) (ops : List (Op D H)) : World D H := ops.foldl (World.step c x) w

end Verif.Back
