import Verif.Framer.Model

/-!
Model of the outgoing side of the stdio transport: the bounded write queue and the writer thread
(src/mcp/StdioTransport.cpp 202-249, 700-722, 826-925, 1193-1204, 1233-1239).

Every critical section under `writeMutex` and every single `write(2)` is one atomic step; an execution is an
arbitrary list of steps, so all interleavings of senders, the writer thread, the setter and disconnects are
covered. `Start` is called once. Poll/EAGAIN/EINTR retries write nothing and are not steps; a write timeout or a
write error is the step `writeFail`.
-/

namespace Verif.Stdio
open Framer

/-- State of the outgoing side. `out` is what has reached the pipe. `accepted` is a history variable: the payloads for
which `enqueueFrame` returned true, in order. -/
structure W where
  queue : List Bytes
  queuedBytes : Nat
  maxBytes : Nat
  connected : Bool
  /-- The frame the writer thread holds and how many of its bytes are written (`frame`, `total`). -/
  cur : Option (Bytes × Nat)
  out : Bytes
  overflowErrors : Nat
  writeErrors : Nat
  accepted : List Bytes

/-- Initial state after `Start` (StdioTransport.cpp 98-100: 2 MiB default cap). -/
def W.init : W :=
  { queue := [], queuedBytes := 0, maxBytes := 2 * 1024 * 1024, connected := true, cur := none, out := [],
    overflowErrors := 0, writeErrors := 0, accepted := [] }

/-- StdioTransport.cpp 202-249, `enqueueFrame`. The caller's `connected` check is a separate earlier step, so the flag is
not consulted here. -/
def W.enqueue (s : W) (payload : Bytes) : W × Bool :=
  let frame := encode payload
  if s.queuedBytes + frame.length > s.maxBytes then
    ({ s with overflowErrors := s.overflowErrors + 1, connected := false }, false)
  else
    ({ s with queuedBytes := s.queuedBytes + frame.length, queue := s.queue ++ [frame],
              accepted := s.accepted ++ [payload] }, true)

/-- StdioTransport.cpp 700-713, `dequeueNextFrame` returning a frame: only when the writer holds none. With an empty queue the
writer waits (connected) or exits (disconnected): no change. -/
def W.dequeue (s : W) : W :=
  match s.cur, s.queue with
  | none, f :: q => { s with cur := some (f, 0), queue := q }
  | _, _ => s

/-- StdioTransport.cpp 900 and 826-830: inside the loop `while (connected && total < frame.size())`, one `write` that accepts
`k + 1` bytes, at most what is left. -/
def W.write (s : W) (k : Nat) : W :=
  match s.cur with
  | some (f, t) =>
    if s.connected = true ∧ t < f.length then
      let n := min (k + 1) (f.length - t)
      { s with out := s.out ++ (f.drop t).take n, cur := some (f, t + n) }
    else s
  | none => s

/-- StdioTransport.cpp 836-843, 848-855, 864-871, 907-914: a write error or timeout. -/
def W.writeFail (s : W) : W :=
  match s.cur with
  | some (f, t) =>
    if s.connected = true ∧ t < f.length then { s with connected := false, writeErrors := s.writeErrors + 1 } else s
  | none => s

/-- StdioTransport.cpp 715-722 and 920: the inner loop has ended (all bytes written, or disconnected); `accountWritten`. -/
def W.finish (s : W) : W :=
  match s.cur with
  | some (f, t) =>
    if s.connected = true ∧ t < f.length then s
    else { s with queuedBytes := if s.queuedBytes ≥ f.length then s.queuedBytes - f.length else 0, cur := none }
  | none => s

/-- One atomic step of some thread. -/
inductive WOp where
  | enqueue (payload : Bytes)
  | dequeue
  | write (k : Nat)
  | writeFail
  | finish
  | disconnect
  | setMax (n : Nat)

/-- The effect of a step. `disconnect`: `Close`, end of input or any other place that sets `connected = false`. `setMax`:
`SetWriteQueueMaxBytes`, StdioTransport.cpp 1233-1239. -/
def W.step (s : W) : WOp → W
  | .enqueue p => (s.enqueue p).1
  | .dequeue => s.dequeue
  | .write k => s.write k
  | .writeFail => s.writeFail
  | .finish => s.finish
  | .disconnect => { s with connected := false }
  | .setMax n => { s with maxBytes := if n = 0 then 1 else n }

/-- An execution. -/
def W.run (s : W) (ops : List WOp) : W := ops.foldl W.step s

end Verif.Stdio
