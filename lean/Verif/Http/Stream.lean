import Verif.Http.Events
import Verif.Rpc.Model

/-!
Model of the thread that keeps the event stream of an HTTP client, src/mcp/HTTPTransport.cpp: `runSseLoop` 517-743 (`sleepForRetry` 553-558,
the plain loop 560-643; the TLS loop 645-735 does the same on another kind of connection), and the part of `Close` that stops it,
`stopSseLoop` 219-225.

The thread goes round: it looks whether it is to go on, connects, asks for the stream, reads the head of the response and then lines until the
connection ends, and sleeps. What the network does is a step: a connection made or lost, a head, a piece of the body. Time passes in a
step of its own and matters only to the thread that sleeps; how long the network lets the thread wait elsewhere is not modelled. `Close`
first clears `sseEnabled` and then waits for the thread.
The authentication header (its future is waited for, 585-586) is modelled elsewhere (Http/Exchange). What the handlers do with a
message is not modelled here (Http/Transport); handlers that throw or that call `Close` are left out.
-/

namespace Verif.Http

/-- Where the thread is. -/
inductive Phase where
  | top
  | dialing
  | asking
  | reading (c : SseConn)
  | asleep (left : Nat)
  | ended
  deriving DecidableEq

/-- What the thread works with. `gets` and `got` are history variables: the session id of each request for the stream, and the messages handed on from the connections
that are over. -/
structure Strm where
  phase : Phase
  retry : Nat
  enabled : Bool
  connected : Bool
  session : Bytes
  gets : List Bytes
  got : List Bytes
  deriving DecidableEq

/-- The thread is started for a session, 513-514, with `sseReconnectDelayMs`. -/
def Strm.init (delay : Nat) (session : Bytes) : Strm := ⟨.top, delay, true, true, session, [], []⟩

def Strm.on (s : Strm) : Bool := s.connected && s.enabled

/-- `sleepForRetry`, 553-558, and back to the start of the loop. -/
def Strm.sleep (s : Strm) : Strm := { s with phase := if s.on then .asleep s.retry else .top }

/-- The connection is over: the retry delay was kept outside of it. -/
def Strm.leave (s : Strm) (c : SseConn) : Strm := ({ s with retry := c.st.retry, got := s.got ++ c.st.out }).sleep

/-- A header line, 605-620. -/
def headLine (session : Bytes) (l : Bytes) : Bytes :=
  match splitCh ':' (dropCr l) with
  | none => session
  | some (name, value) => if name = lit "Mcp-Session-Id" then value.dropWhile (· = ' ') else session

/-- The header lines, 603-621: the session id they leave, and the lines after them. -/
def headLoop (session : Bytes) : List Bytes → Bytes × List Bytes
  | [] => (session, [])
  | l :: r => if l = ['\r'] then (session, r) else headLoop (headLine session l) r

/-- `while (connected && sseEnabled)`, 563. -/
def Strm.check (s : Strm) : Strm :=
  match s.phase with
  | .top => { s with phase := if s.on then .dialing else .ended }
  | _ => s

/-- Connected: the request is made and sent, 573-588. -/
def Strm.dial (s : Strm) : Strm :=
  match s.phase with
  | .dialing => if s.session = [] then { s with phase := .ended } else { s with phase := .asking, gets := s.gets ++ [s.session] }
  | _ => s

/-- What `read_until` got up to the end of the head and maybe beyond, 589-625. -/
def Strm.head (s : Strm) (b : Bytes) : Strm :=
  match s.phase with
  | .asking =>
    match getlines b with
    | [] => s.sleep
    | status :: lines =>
      if containsSub (lit "200") status then
        let h := headLoop s.session lines
        if s.on then { s with session := h.1, phase := .reading ⟨[], h.2.foldl Sse.line ⟨[], s.retry, []⟩⟩ }
        else ({ s with session := h.1 }).sleep
      else if containsSub (lit "405") status then { s with enabled := false, phase := .ended }
      else s.sleep
  | _ => s

/-- A piece of the body arrives, 624-637. -/
def Strm.piece (s : Strm) (a : Bytes) : Strm :=
  match s.phase with
  | .reading c => if s.on then { s with phase := .reading (c.recv a) } else if '\n' ∈ c.buf ++ a then s.leave c else { s with phase := .reading ⟨c.buf ++ a, c.st⟩ }
  | _ => s

/-- The connection cannot be made or ends, 632-641. -/
def Strm.broken (s : Strm) : Strm :=
  match s.phase with
  | .dialing => s.sleep
  | .asking => s.sleep
  | .reading c => s.leave c
  | _ => s

/-- Milliseconds pass, 557. -/
def Strm.tick (s : Strm) (n : Nat) : Strm :=
  match s.phase with
  | .asleep left => { s with phase := if left ≤ n then .top else .asleep (left - n) }
  | _ => s

inductive StrmOp where
  | check
  | dial
  | head (b : Bytes)
  | piece (a : Bytes)
  | broken
  | tick (n : Nat)
  /-- an exchange gives a session id, 227-233 -/
  | capture (sid : Bytes)
  /-- `Close` up to where it waits for the thread, 219-222 -/
  | close
  deriving DecidableEq

def Strm.step (s : Strm) : StrmOp → Strm
  | .check => s.check
  | .dial => s.dial
  | .head b => s.head b
  | .piece a => s.piece a
  | .broken => s.broken
  | .tick n => s.tick n
  | .capture sid => { s with session := if sid = [] then s.session else sid }
  | .close => { s with enabled := false }

def Strm.run (s : Strm) (ops : List StrmOp) : Strm := ops.foldl Strm.step s

/-- The messages handed on so far. -/
def Strm.messages (s : Strm) : List Bytes :=
  s.got ++ (match s.phase with | .reading c => c.st.out | _ => [])

end Verif.Http
