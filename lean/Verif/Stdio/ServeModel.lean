import Verif.Server.CancelModel

/-!
Model of the reader thread of the stdio transport together with the handlers it runs: `drainFrames` calls `processMessage`, which
calls `route`, which calls the request handler and waits for its response (src/mcp/StdioTransport.cpp 255-265, 980-998;
src/mcp/JsonRpcMessageRouter.cpp 111-166). The handler is the dispatcher of the server, which waits for the future of a tool or
resource handler (src/mcp/Server.cpp 924-926, 990-994). So a handler that sends a request of its own and waits for the response
(`Server::RequestCreateMessage` and the like) does so on the reader thread, or while the reader thread waits for it.

Messages are decoded payloads (framing is C08 to C11). The pending requests are the model of C13, the cancellation tokens that
of C26. A request handler is installed, and everything queued for writing is taken (the limit of the queue is C12). One `Start`.
-/

namespace Verif.Serve

open Verif.Stdio

variable {D : Type} [DblFmt D]

/-- What a handler does: it returns (or throws), or sends a request and waits for its future, or reads its stop token. -/
inductive Prog (D : Type) where
  | done (o : HandlerOutcome D)
  | ask (q : Request D) (k : Outcome D → Prog D)
  | look (k : Bool → Prog D)

/-- What the router makes of a message when a request handler is installed, JsonRpcMessageRouter.cpp 111-166. -/
inductive Ev (D : Type) where
  | response (r : Response D)
  | request (q : Request D)
  | note (n : Notification D)
  | unknown
  deriving DecidableEq

def tailEvent (m : Bytes) : Ev D :=
  match deNotification (D := D) m with
  | some n => .note n
  | none => .unknown

def event (m : Bytes) : Ev D :=
  if hasTopLevelKey m (lit "result") || hasTopLevelKey m (lit "error") then .response (deResponse m)
  else if containsSub (lit "\"method\"") m && hasTopLevelKey m (lit "id") then
    match deRequest (D := D) m with
    | some q => .request q
    | none => tailEvent m
  else tailEvent m

/-- The request the reader thread is busy with. `call` is its number among the calls of the cancellation model, `wait` the future
the handler waits for. -/
structure Busy (D : Type) where
  req : Request D
  call : Nat
  prog : Prog D
  wait : Option Nat

/-- State. `taken`, `replies`, `heard`, `seen` are history variables. -/
structure S (D : Type) where
  /-- Messages the other side has written and the reader has not taken. -/
  inbox : List Bytes
  busy : Option (Busy D)
  pend : P D
  cancel : Cancel.St
  /-- The requests of `SendRequest` calls under way, by future. -/
  calls : List (Nat × Request D)
  /-- Payloads queued for writing. -/
  out : List Bytes
  taken : List Bytes
  /-- Requests answered, and what their handlers did. -/
  replies : List (Request D × HandlerOutcome D)
  /-- What handlers were told by the futures they waited for. -/
  heard : List (Nat × Outcome D)
  /-- What handlers read from their stop tokens, by call. -/
  seen : List (Nat × Bool)

def S.init : S D :=
  { inbox := [], busy := none, pend := P.init, cancel := .init, calls := [], out := [], taken := [], replies := [], heard := [],
    seen := [] }

/-- The first half of `SendRequest`, StdioTransport.cpp 1154-1163, by any thread. -/
def S.check (s : S D) (q : Request D) : S D :=
  { s with pend := s.pend.sendCheck q.id, calls := s.calls ++ [(s.pend.nextFut, q)] }

/-- The request as it is written, StdioTransport.cpp 1165-1175. -/
def stamped (q : Request D) (key : Bytes) : Request D := if idText q.id = [] then { q with id := .str key } else q

/-- The second half, StdioTransport.cpp 1165-1190, by any thread. -/
def S.file (s : S D) (n now : Nat) : S D :=
  match s.pend.waiting n, AMap.get s.calls n with
  | some id, some q => { s with pend := s.pend.sendInsert n now, out := s.out ++ [serRequest (stamped q (chooseKey id s.pend.counter).1)] }
  | _, _ => s

/-- `handleNotification` of the server as far as it concerns running calls, Server.cpp 1137-1156 (`Methods::Cancelled`,
include/mcp/Protocol.h 473). -/
def S.notify (s : S D) (n : Notification D) : S D :=
  if n.method = lit "notifications/cancelled" then { s with cancel := s.cancel.step (.cancel n.params) } else s

/-- A request is handed to the dispatcher, which registers its token (Server.cpp 1549-1553) and, for tools and resources, its
stop source (921, 988). -/
def S.begin (s : S D) (h : Request D → Prog D) (q : Request D) : S D :=
  let c := s.cancel.step (D := D) (.start q.id)
  { s with busy := some ⟨q, s.cancel.calls.length, h q, none⟩, cancel := c.step (D := D) (.openSource s.cancel.calls.length) }

/-- The reader takes the next message (StdioTransport.cpp 255-265): only while connected, and not while it is in a handler. -/
def S.read (s : S D) (h : Request D → Prog D) : S D :=
  if s.pend.connected = true then
    match s.busy, s.inbox with
    | none, m :: rest =>
      let s := { s with inbox := rest, taken := s.taken ++ [m] }
      match event (D := D) m with
      | .response r => { s with pend := s.pend.step (.response r) }
      | .request q => s.begin h q
      | .note n => s.notify n
      | .unknown => s
    | _, _ => s
  else s

/-- The handler goes on: it returns and is answered (JsonRpcMessageRouter.cpp 127-143, StdioTransport.cpp 994-996, the guards of
the dispatcher are left), reads its stop token, enters `SendRequest`, or waits for the future it got. -/
def S.work (s : S D) : S D :=
  match s.busy with
  | none => s
  | some b =>
    match b.prog, b.wait with
    | .done o, _ =>
      { s with busy := none, out := s.out ++ [serResponse (replyFor b.req o)], replies := s.replies ++ [(b.req, o)],
               cancel := s.cancel.step (D := D) (.finish b.call) }
    | .look k, _ =>
      let f := (s.cancel.stopRequested b.call).getD false
      { s with busy := some { b with prog := k f }, seen := s.seen ++ [(b.call, f)] }
    | .ask q _, none => { s.check q with busy := some { b with wait := some s.pend.nextFut } }
    | .ask _ k, some n =>
      match AMap.get s.pend.outcomes n with
      | none => s
      | some o => { s with busy := some { b with prog := k o, wait := none }, heard := s.heard ++ [(n, o)] }

/-- Steps. `arrive`: the other side has written a message. `check`, `file`: the halves of `SendRequest`, of a thread of the
application or (`file`) of the handler. The others are those of C13. -/
inductive Op (D : Type) where
  | arrive (m : Bytes)
  | read
  | work
  | check (q : Request D)
  | file (n now : Nat)
  | sweep (now : Nat)
  | disconnect
  | close
  | setTimeout (t : Nat)

def S.step (h : Request D → Prog D) (s : S D) : Op D → S D
  | .arrive m => { s with inbox := s.inbox ++ [m] }
  | .read => s.read h
  | .work => s.work
  | .check q => s.check q
  | .file n now => s.file n now
  | .sweep now => { s with pend := s.pend.step (.sweep now) }
  | .disconnect => { s with pend := s.pend.step .disconnect }
  | .close => { s with pend := s.pend.step .close }
  | .setTimeout t => { s with pend := s.pend.step (.setTimeout t) }

def S.run (h : Request D → Prog D) (s : S D) (ops : List (Op D)) : S D := ops.foldl (S.step h) s

end Verif.Serve
