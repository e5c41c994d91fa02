import Verif.Stdio.WriteModel
import Verif.Stdio.ServeModel

/-!
Two stdio transports joined by two pipes (src/mcp/StdioTransport.cpp), down to the bytes: each side has its pending requests (the model of
C13), its write queue and writer (C12), its reader with the frame decoder (C08 to C11), and the handler its reader thread runs (C94, C96). The
flag `connected` is one for all of them.

Each critical section, each `read` and `write` and each frame decoded is one step, of either side, in any order. `SendRequest` is three steps: the
test of `connected`, the insertion of the promise, the enqueueing of the frame; `SendNotification` is two. What a handler reads from its stop token is up
to the environment. A pipe holds what was written and not read; end of input, hang-up, the idle time limit and the loss of data that goes with them
(C56) are the step `cut`. One `Start` on each side; threads of `Close` and the Windows branch are left out.
-/

namespace Verif.Duplex

open Verif.Stdio Verif.Framer
open Verif.Serve (Prog Ev event stamped)

variable {D : Type} [DblFmt D]

/-- The request the reader thread is busy with, and the future its handler waits for. -/
structure Job (D : Type) where
  req : Request D
  prog : Prog D
  wait : Option Nat

/-- One side. `given`, `notes`, `taken`, `replies`, `heard`, `told` are history variables. -/
structure End (D : Type) where
  p : P D
  w : W
  /-- Payloads of threads that stand before `enqueueFrame`. -/
  ready : List Bytes
  /-- Bytes read from the pipe so far. -/
  got : Nat
  /-- The accumulation buffer. -/
  buf : Bytes
  job : Option (Job D)
  /-- The requests given to `SendRequest`; the n-th call owns future n. -/
  given : List (Request D)
  /-- The notifications given to `SendNotification`. -/
  notes : List (Notification D)
  /-- The messages handed to `processMessage`. -/
  taken : List Bytes
  /-- The requests answered, and what their handlers did. -/
  replies : List (Request D × HandlerOutcome D)
  /-- The notifications handed to the notification handler. -/
  heard : List (Notification D)
  /-- What handlers were told by the futures they waited for. -/
  told : List (Nat × Outcome D)

def End.init : End D := ⟨P.init, W.init, [], 0, [], none, [], [], [], [], [], []⟩

/-- `connected = false`, wherever it is done. -/
def End.cut (e : End D) : End D := { e with p := e.p.step .disconnect, w := e.w.step .disconnect }

/-- A step of the outgoing side; if it clears `connected`, it does so for all. -/
def End.writes (e : End D) (op : WOp) : End D :=
  if (e.w.step op).connected then { e with w := e.w.step op } else { e with w := e.w.step op, p := e.p.step .disconnect }

/-- The first part of `SendRequest`, StdioTransport.cpp 1154-1163. -/
def End.check (e : End D) (q : Request D) : End D := { e with p := e.p.step (.sendCheck q.id), given := e.given ++ [q] }

/-- The second part, 1165-1186. -/
def End.file (e : End D) (n now : Nat) : End D :=
  match e.p.waiting n, e.given[n]? with
  | some id, some q => { e with p := e.p.step (.sendInsert n now), ready := e.ready ++ [serRequest (stamped q (chooseKey id e.p.counter).1)] }
  | _, _ => e

/-- `SendNotification` up to the enqueueing, 1193-1201. -/
def End.note (e : End D) (n : Notification D) : End D :=
  if e.w.connected then { e with notes := e.notes ++ [n], ready := e.ready ++ [serNotification n] } else e

/-- A thread enqueues its frame, 1188 and 1203. -/
def End.push (e : End D) (i : Nat) : End D :=
  match e.ready[i]? with
  | some m => { e with ready := e.ready.eraseIdx i }.writes (.enqueue m)
  | none => e

/-- A read of the read loop, 463-464 and 540-560: when the frames read before are done with, at most 4096 bytes of what the pipe holds. -/
def End.read (max : Nat) (sent : Bytes) (e : End D) (k : Nat) : End D :=
  if e.w.connected = true ∧ e.job.isNone = true ∧ tryDecodeEx max e.buf = .incomplete then
    { e with buf := e.buf ++ (sent.drop e.got).take (min (k + 1) 4096), got := e.got + ((sent.drop e.got).take (min (k + 1) 4096)).length }
  else e

/-- `processMessage`, 980-998, up to the call of the request handler. -/
def End.process (h : Request D → Prog D) (e : End D) (m : Bytes) : End D :=
  match event (D := D) m with
  | .response r => { e with p := e.p.step (.response r) }
  | .request q => { e with job := some ⟨q, h q, none⟩ }
  | .note n => { e with heard := e.heard ++ [n] }
  | .unknown => e

/-- One turn of `drainFrames`, 257-287. -/
def End.decode (max : Nat) (h : Request D → Prog D) (e : End D) : End D :=
  if e.w.connected = true ∧ e.job.isNone = true then
    match tryDecodeEx max e.buf with
    | .incomplete => e
    | .ok m k => { e with buf := if 0 < k ∧ k ≤ e.buf.length then e.buf.drop k else e.buf, taken := e.taken ++ [m] }.process h m
    | .invalid k => { e with buf := if 0 < k ∧ k ≤ e.buf.length then e.buf.drop k else e.buf.drop 1 }
    | .tooLarge _ => e.cut
  else e

/-- The handler goes on, as in Stdio/ServeModel; its answer is enqueued (994-996) whether or not the transport is still connected. -/
def End.work (e : End D) (stop : Bool) : End D :=
  match e.job with
  | none => e
  | some j =>
    match j.prog, j.wait with
    | .done o, _ => { e with job := none, replies := e.replies ++ [(j.req, o)] }.writes (.enqueue (serResponse (replyFor j.req o)))
    | .look k, _ => { e with job := some { j with prog := k stop } }
    | .ask q _, none => { e.check q with job := some { j with wait := some e.p.nextFut } }
    | .ask _ k, some n =>
      match AMap.get e.p.outcomes n with
      | none => e
      | some o => { e with job := some { j with prog := k o, wait := none }, told := e.told ++ [(n, o)] }

/-- Steps of one side. -/
inductive EndOp (D : Type) where
  | check (q : Request D)
  | file (n now : Nat)
  | note (n : Notification D)
  | push (i : Nat)
  | dequeue
  | write (k : Nat)
  | writeFail
  | finish
  | setMax (n : Nat)
  | read (k : Nat)
  | decode
  | work (stop : Bool)
  | sweep (now : Nat)
  | cut
  | close
  | setTimeout (t : Nat)

/-- The effect of a step; `max` is the content limit of this side, `sent` what the other side has written. `SetWriteQueueMaxBytes` takes a
`size_t`. -/
def End.step (max : Nat) (h : Request D → Prog D) (sent : Bytes) (e : End D) : EndOp D → End D
  | .check q => e.check q
  | .file n now => e.file n now
  | .note n => e.note n
  | .push i => e.push i
  | .dequeue => e.writes .dequeue
  | .write k => e.writes (.write k)
  | .writeFail => e.writes .writeFail
  | .finish => e.writes .finish
  | .setMax n => e.writes (.setMax (min n sizeMax))
  | .read k => e.read max sent k
  | .decode => e.decode max h
  | .work b => e.work b
  | .sweep now => { e with p := e.p.step (.sweep now) }
  | .cut => e.cut
  | .close => { e.cut with p := e.p.step .close }
  | .setTimeout t => { e with p := e.p.step (.setTimeout t) }

/-- The handlers and content limits of the two sides. -/
structure Cfg (D : Type) where
  handler : Bool → Request D → Prog D
  max : Bool → Nat

/-- Both sides. -/
structure Pair (D : Type) where
  a : End D
  b : End D

def Pair.init : Pair D := ⟨.init, .init⟩

def Pair.get (s : Pair D) : Bool → End D
  | false => s.a
  | true => s.b

def Pair.set (s : Pair D) : Bool → End D → Pair D
  | false, e => { s with a := e }
  | true, e => { s with b := e }

def Pair.step (c : Cfg D) (s : Pair D) (x : Bool × EndOp D) : Pair D :=
  s.set x.1 ((s.get x.1).step (c.max x.1) (c.handler x.1) (s.get (!x.1)).w.out x.2)

/-- An execution. -/
def Pair.run (c : Cfg D) (s : Pair D) (ops : List (Bool × EndOp D)) : Pair D := ops.foldl (Pair.step c) s

end Verif.Duplex
