import Verif.Base.Bytes
import Verif.Framer.Model

/-!
Model of the event stream (SSE): what the server writes for an event, src/mcp/HTTPServer.cpp 460-463 (and 567-570 for TLS), and how the
client reads it, `parseEventStream` (src/mcp/HTTPTransport.cpp 519-551) and the reading loop 612-625 (and 719-733 for TLS).

The client keeps what it has received in a buffer. `read_until` waits until there is a newline in the buffer, which may then hold more
than a line; `parseEventStream` calls `std::getline` until the buffer is empty, so that a last line without its newline is taken for a
whole line. Exceptions of the handlers, which would end the connection, are not modelled.
-/

namespace Verif.Http

/-- One event on the wire. -/
def eventText (e : Nat × Bytes) : Bytes := lit "id: " ++ natDec e.1 ++ lit "\ndata: " ++ e.2 ++ lit "\n\n"

/-- The lines `std::getline` gives until the stream is exhausted. -/
def getlines : Bytes → List Bytes
  | [] => []
  | c :: s =>
    if c = '\n' then [] :: getlines s
    else
      match getlines s with
      | [] => [[c]]
      | l :: r => (c :: l) :: r

/-- What the loop over the lines keeps: the data collected, the retry delay, and what was handed to `handleIncomingJson`. -/
structure Sse where
  data : Bytes
  retry : Nat
  out : List Bytes
  deriving DecidableEq

/-- The value of a field: one leading space is dropped, 533-536 and 542-545. -/
def fieldValue (s : Bytes) : Bytes :=
  match s with
  | ' ' :: r => r
  | _ => s

/-- `line.pop_back()` of a carriage return, 522-524. -/
def dropCr (line : Bytes) : Bytes := if line.getLast? = some '\r' then line.dropLast else line

/-- The body of the loop for a line without its end, 525-549. -/
def Sse.field (s : Sse) (l : Bytes) : Sse :=
  if l = [] then (if s.data = [] then s else { s with data := [], out := s.out ++ [s.data] })
  else if (lit "data:").isPrefixOf l then
    { s with data := if s.data = [] then fieldValue (l.drop 5) else s.data ++ '\n' :: fieldValue (l.drop 5) }
  else if (lit "retry:").isPrefixOf l then
    match Framer.stoull (fieldValue (l.drop 6)) with
    | some n => { s with retry := n % 2 ^ 32 }
    | none => s
  else s

def Sse.line (s : Sse) (l : Bytes) : Sse := s.field (dropCr l)

/-- `parseEventStream`, 519-551, on the bytes in the buffer. -/
def Sse.parse (s : Sse) (b : Bytes) : Sse := (getlines b).foldl Sse.line s

/-- The connection: bytes received that hold no newline, and the parser. -/
structure SseConn where
  buf : Bytes
  st : Sse
  deriving DecidableEq

/-- The start of the body, 612-616: what came with the headers is parsed at once. -/
def SseConn.start (retry : Nat) (rest : Bytes) : SseConn := ⟨[], (⟨[], retry, []⟩ : Sse).parse rest⟩

/-- A piece arrives, 616-625: `read_until` returns once there is a newline. -/
def SseConn.recv (c : SseConn) (a : Bytes) : SseConn :=
  if '\n' ∈ c.buf ++ a then ⟨[], c.st.parse (c.buf ++ a)⟩ else ⟨c.buf ++ a, c.st⟩

def SseConn.recvAll (c : SseConn) (l : List Bytes) : SseConn := l.foldl SseConn.recv c

end Verif.Http
