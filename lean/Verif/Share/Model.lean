import Verif.SharedMemory.Model
import Verif.Whole.Model

/-!
A client and a server in two processes, connected by a pair of shared-memory transports: the calls of the client (Await/Model, Client/Calls), the pair (SharedMemory/Model)
and the dispatcher of the server (Server/Dispatch) as one system. Either of the two may be the side that creates the queues: `x` is the side of the client.

A call of the client that sends its request enters `SendRequest` of its transport (src/mcp/Client.cpp, e.g. 1374-1383; src/mcp/SharedMemoryTransport.cpp 351-434) with a
default-constructed id. The request is refused there at once, or goes on to get its future and its id in a later step. Each request that comes to the server is handled by a
thread of its own (src/mcp/SharedMemoryTransport.cpp 99-117), which runs `dispatchRequest` (src/mcp/Server.cpp 1534-1536) and tries to put the answer into the queue of the
client. An exception that is not a `std::exception` leaves this thread and ends the process of the server; the queues and the client stay.

Simplified as in the parts. A dispatch is one step at some time between the arrival of the request and the answer; one that waits (`blocked`) changes nothing until it can go on,
and does not keep other threads from going on. Requests of the server to the client and the answers of the handlers of the client are steps of the pair. Both transports have
their handlers and have been started, the creator first. Neither object is destroyed.
-/

namespace Verif.Share

open Verif.Await Verif.Client Verif.Server
open Verif.Whole (asRequest asking)

variable {D H : Type} [DblFmt D]

/-- What the awaited future of the transport gives: src/mcp/SharedMemoryTransport.cpp 189-206 (a response), 355-362 and 129-138 (the peer is not connected), 409-417 (too large),
421-431 (not sent), 279-284 and 335-340 (closed), and a promise destroyed unset. -/
def seen : Shm.Outcome D → Client.Outcome D
  | .response r => .resp r
  | .refused id => .resp ⟨id, none, some (mkErrorObj Code.internalError (lit "Peer not connected") none)⟩
  | .tooLarge id => .resp ⟨id, none, some (mkErrorObj Code.internalError (lit "Payload too large") none)⟩
  | .sendFailed id => .resp ⟨id, none, some (mkErrorObj Code.internalError (lit "Send failed") none)⟩
  | .peerGone id => .resp ⟨.str id, none, some (mkErrorObj Code.internalError (lit "Peer not connected") none)⟩
  | .closed id => .resp ⟨.str id, none, some (mkErrorObj Code.internalError (lit "Transport closed") none)⟩
  | .broken => .threw

/-- The client, the pair of transports, the server. -/
structure World (D H : Type) where
  client : Sys (Self D) (Req D) (Client.Outcome D) (Option (Val D))
  /-- The futures of the transport that the requests of the calls got, in the order of sending; `none` before the promise is filed. -/
  futs : List (Option Nat)
  /-- Which of the requests the tickets of the transport belong to. -/
  waits : List Nat
  net : Shm.Net D
  srv : Srv D H
  /-- The process of the server has been terminated. -/
  dead : Bool

/-- Both transports have their handlers and have been started. -/
def World.init (c : Shm.Cfg) (s0 : Self D) (srv : Srv D H) : World D H :=
  ⟨.init s0, [], [], (Shm.Net.init true true).run c [.start false, .start true], srv, false⟩

/-- What can happen. -/
inductive Op (D H : Type) where
  /-- The application calls the client. -/
  | call (api : Api D)
  /-- The thread of call `i` does the next thing. -/
  | go (i : Nat)
  /-- The caller of call `i` gives up the objects it passed. -/
  | drop (i : Nat)
  /-- Anything else that changes the client. -/
  | change (u : Self D → Self D)
  /-- The future of the `k`-th request of the calls is seen to be ready. -/
  | deliver (k : Nat)
  /-- The `i`-th request that has passed the check of `SendRequest` gets its future. -/
  | file (i : Nat)
  /-- Another step of the pair. -/
  | wire (op : Shm.Op D)
  /-- The thread of the `i`-th request in work at the server runs `dispatchRequest` and sends the answer. -/
  | serve (i : Nat) (env : Env D H)
  /-- The application that owns the server, or one of its workers. -/
  | own (op : SrvOp D H)

/-- The side that acts. -/
def actor : Shm.Op D → Bool
  | .start x | .send x _ | .file x _ | .deliver x _ | .notify x _ | .take x | .handle x | .reply x _ _ | .loopEnd x | .closeFlag x | .closeEnd x | .tick x => x
  | .closeTell => false

/-- Steps of the pair that belong to the calls of the client and to `serve`. -/
def reserved (x : Bool) : Shm.Op D → Bool
  | .send y _ => y == x
  | .file y _ => y == x
  | .reply y _ _ => y != x
  | _ => false

/-- `SendRequest` is entered: src/mcp/SharedMemoryTransport.cpp 355-363. -/
def World.go (c : Shm.Cfg) (x : Bool) (w : World D H) (i : Nat) : World D H :=
  match asking w.client i with
  | some q =>
    if w.client.ub = false ∧ w.client.alive = true then
      if (w.net.get x).connected then
        { w with client := w.client.step (.go i), futs := w.futs ++ [none], waits := w.waits ++ [w.futs.length], net := w.net.step c (.send x (asRequest q)) }
      else
        { w with client := w.client.step (.go i), futs := w.futs ++ [some (w.net.get x).tab.nextFut], net := w.net.step c (.send x (asRequest q)) }
    else { w with client := w.client.step (.go i) }
  | none => { w with client := w.client.step (.go i) }

/-- src/mcp/SharedMemoryTransport.cpp 364-405. -/
def World.file (c : Shm.Cfg) (x : Bool) (w : World D H) (i : Nat) : World D H :=
  match w.waits[i]? with
  | some k => { w with futs := w.futs.set k (some (w.net.get x).tab.nextFut), waits := w.waits.eraseIdx i, net := w.net.step c (.file x i) }
  | none => w

def World.deliver (x : Bool) (w : World D H) (k : Nat) : World D H :=
  match w.futs[k]? with
  | some (some n) =>
    match AMap.get (w.net.get x).tab.outcomes n with
    | some o => { w with client := w.client.step (.fill k (seen o)) }
    | none => w
  | _ => w

/-- src/mcp/SharedMemoryTransport.cpp 99-117 with the handler of src/mcp/Server.cpp 1534-1536. -/
def World.serve (c : Shm.Cfg) (x : Bool) (w : World D H) (i : Nat) (env : Env D H) : World D H :=
  match (w.net.get (!x)).jobs[i]? with
  | none => w
  | some q =>
    match (dispatch env w.srv q).1 with
    | .answer r => { w with srv := (dispatch env w.srv q).2, net := w.net.step c (.reply (!x) i (.resp r)) }
    | .escaped => { w with srv := (dispatch env w.srv q).2, dead := true }
    | .blocked => w

/-- A terminated process does nothing. -/
def World.step (c : Shm.Cfg) (x : Bool) (w : World D H) : Op D H → World D H
  | .call api => { w with client := w.client.step (.call (body api)) }
  | .go i => w.go c x i
  | .drop i => { w with client := w.client.step (.drop i) }
  | .change u => { w with client := w.client.step (.change u) }
  | .deliver k => w.deliver x k
  | .file i => w.file c x i
  | .wire op => if reserved x op || (w.dead && actor op != x) then w else { w with net := w.net.step c op }
  | .serve i env => if w.dead then w else w.serve c x i env
  | .own op =>
    if w.dead then w else
      match op with
      | .request _ _ => w
      | op => { w with srv := w.srv.step op }

def World.run (c : Shm.Cfg) (x : Bool) (w : World D H) (ops : List (Op D H)) : World D H := ops.foldl (World.step c x) w

end Verif.Share
