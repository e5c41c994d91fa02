import Verif.Rpc.Model

/-!
The handshake as the server sees it: `coStart` (src/mcp/Server.cpp 1504-1545), `coStop` (1921-1940), `IsRunning` (2762-2769), `HandleInitialize`
(1942-1948, 2779-2784), the first branch of `handleNotification` (1137-1143), the `initialize` branch of `dispatchRequest` (1561-1568) with
`sendInitializedAndListChangedAsync` (1740-1767), and `HandleJSONRPC` (2771-2777).

One transport after the other may be given to `Start`; they are numbered. Each statement that reads or writes something another thread may see is a step;
an execution is an arbitrary list of steps. A notification is first read by a transport (`arrive`) and later handled (`note`), also after that
transport was closed. Requests are dispatched side by side; what they answer is modelled in Server/Dispatch, here only that they do.

Simplified: a message handed to a transport that is not connected is lost. A transport that has been closed or has lost its connection does not
come back (Stop does not start it again). The destruction of the transport that is replaced by `Start` is not modelled here (C117-C120), nor are exceptions.
-/

namespace Verif.Handshake

variable {D : Type}

/-- `Methods::Initialized`, include/mcp/Protocol.h 463. -/
def ready : Bytes := lit "notifications/initialized"

/-- The notifications of `sendInitializedAndListChangedAsync` in their order, 1743-1763. -/
def tellings : List Bytes :=
  [ready, lit "notifications/tools/list_changed", lit "notifications/resources/list_changed", lit "notifications/prompts/list_changed"]

/-- Their parameters: an empty object. -/
def telling (m : Bytes) : Notification D := ⟨m, some (.obj [])⟩

/-- A message that was handed to a connected transport: a notification, of dispatch `k` or of something else, or the answer of dispatch `k`. -/
inductive Sent (D : Type) where
  | note (k : Option Nat) (n : Notification D)
  | answer (k : Nat) (id : RpcId)

/-- The dispatch a message belongs to. -/
def Sent.of : Sent D → Option Nat
  | .note k _ => k
  | .answer k _ => some k

/-- How far a dispatch is. -/
inductive Stage where
  | fresh
  /-- `handleInitialize` has returned, 1562. -/
  | handled
  /-- The next notification to send is number `i`; past the last one, the answer is to be given. -/
  | telling (i : Nat)
  | done
  deriving DecidableEq

/-- A dispatch: the transport its request came by (`none` for `HandleJSONRPC`), the id, whether it is an `initialize`. -/
structure Call where
  link : Option Nat
  id : RpcId
  init : Bool
  stage : Stage

/-- What happened to the flag `initialized`. -/
inductive Ev where
  | ready
  | cleared
  deriving DecidableEq

structure St (D : Type) where
  initialized : Bool
  /-- `transport`. -/
  cur : Option Nat
  /-- `IsConnected` of the transports given to `Start` so far. -/
  links : List Bool
  /-- The methods of the notifications read and not handled yet. -/
  read : List Bytes
  calls : List Call
  /-- History: what was handed to which transport. -/
  log : List (Nat × Sent D)
  /-- History of the flag. -/
  hist : List Ev

def St.init : St D := ⟨false, none, [], [], [], [], []⟩

/-- `links[l]->IsConnected()`. -/
def St.up (s : St D) (l : Nat) : Bool := s.links[l]?.getD false

/-- `transport && transport->IsConnected()`, 1564. -/
def St.live (s : St D) : Bool :=
  match s.cur with | some l => s.up l | none => false

/-- `IsRunning`, 2762-2769. -/
def St.isRunning (s : St D) : Bool :=
  match s.cur with | some l => s.initialized && s.up l | none => s.initialized

/-- Something is handed to transport `l`. -/
def St.send (s : St D) (l : Nat) (m : Sent D) : St D := if s.up l then { s with log := s.log ++ [(l, m)] } else s

/-- ... to the transport in use. -/
def St.tell (s : St D) (m : Sent D) : St D :=
  match s.cur with | some l => s.send l m | none => s

inductive Op (D : Type) where
  /-- `Start` with a new transport, which comes up or not. -/
  | start (ok : Bool)
  /-- `Stop` clears the flag, 1932-1933. -/
  | stop
  /-- ... and closes the transport, 1934. -/
  | close
  /-- Transport `l` loses its connection. -/
  | lost (l : Nat)
  /-- Transport `l` reads a notification. -/
  | arrive (l : Nat) (method : Bytes)
  /-- Notification `i` of those read is handled. -/
  | note (i : Nat)
  /-- Transport `l` reads a request. -/
  | request (l : Nat) (id : RpcId) (method : Bytes)
  /-- `HandleJSONRPC`. -/
  | direct (id : RpcId) (method : Bytes)
  /-- Dispatch `k` goes on. -/
  | go (k : Nat)
  /-- Another part of the server sends a notification. -/
  | emit (n : Notification D)
  /-- `HandleInitialize`. -/
  | handleInitialize

/-- The flag is set. -/
def St.mark (s : St D) : St D := { s with initialized := true, hist := s.hist ++ [.ready] }

/-- 1137-1143; the other branches do not touch the flag. -/
def St.handle (s : St D) (method : Bytes) : St D := if method = ready then s.mark else s

/-- The stage of dispatch `k` is set. -/
def St.stage (s : St D) (k : Nat) (c : Call) (st : Stage) : St D := { s with calls := s.calls.set k { c with stage := st } }

/-- Is it an `initialize`? (1561) -/
def isInit (method : Bytes) : Bool := decide (method = lit "initialize")

/-- Dispatch `k` goes on. -/
def St.go (s : St D) (k : Nat) (c : Call) : St D :=
  match c.stage with
  | .fresh => if c.init then s.stage k c .handled else s.stage k c (.telling tellings.length)
  | .handled => if s.live then s.stage k c (.telling 0) else s.stage k c (.telling tellings.length)
  | .telling i =>
    match tellings[i]? with
    | some m => (s.tell (.note (some k) (telling m))).stage k c (.telling (i + 1))
    | none =>
      match c.link with
      | some l => (s.send l (.answer k c.id)).stage k c .done
      | none => s.stage k c .done
  | .done => s

def St.step (s : St D) : Op D → St D
  | .start ok => { s with cur := some s.links.length, links := s.links ++ [ok] }
  | .stop => if s.cur.isSome then { s with initialized := false, hist := s.hist ++ [.cleared] } else s
  | .close => match s.cur with | some l => { s with links := s.links.set l false } | none => s
  | .lost l => { s with links := s.links.set l false }
  | .arrive l m => if s.up l then { s with read := s.read ++ [m] } else s
  | .note i =>
    match s.read[i]? with
    | some m => { s with read := s.read.eraseIdx i }.handle m
    | none => s
  | .request l id m => if s.up l then { s with calls := s.calls ++ [⟨some l, id, isInit m, .fresh⟩] } else s
  | .direct id m => { s with calls := s.calls ++ [⟨none, id, isInit m, .fresh⟩] }
  | .go k => match s.calls[k]? with | some c => s.go k c | none => s
  | .emit n => s.tell (.note none n)
  | .handleInitialize => s.mark

def St.run (s : St D) (ops : List (Op D)) : St D := ops.foldl St.step s

/-- The methods of the notifications a client sends: `NotifyRootsListChanged` (src/mcp/Client.cpp 1434-1449) and `sendTaskStatusNotification` (553-564).
`Initialize` (1113-1151) sends a request and nothing else. -/
def clientNotes : List Bytes := [lit "notifications/roots/list_changed", lit "notifications/tasks/status"]

end Verif.Handshake
