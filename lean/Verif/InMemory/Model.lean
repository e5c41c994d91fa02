import Verif.Base.Promise
import Verif.Rpc.Model
import Verif.Stdio.PendingModel

/-!
Model of a pair of in-memory transports (src/mcp/InMemoryTransport.cpp).

Atomic steps are the critical sections of the code: inserting the promise, `sendToPeer`, popping a message, handling it, a
handler thread finishing, the two halves of `Close`. `Start` is assumed to be called once per endpoint (one processing thread).
Not modelled: destruction, `SetPeer`-less endpoints, thread creation failure.
-/

set_option linter.unusedSectionVars false

namespace Verif.InMemory

open Verif.Stdio (idText)

variable {D : Type} [DblFmt D]

/-- How a request future completes. -/
inductive Outcome (D : Type) where
  | response (r : Response D)
  | peerGone (id : RpcId)
  | closed (id : Bytes)
  | broken

/-- What processing one message text amounts to (`processMessage`, 80-134). -/
inductive Event (D : Type) where
  | resolve (r : Response D)
  | request (r : Request D)
  | notification (n : Notification D)
  | dropped
  deriving DecidableEq

/-- The tail of `processMessage`, 126-133. -/
def asNotification (text : Bytes) : Event D :=
  match deNotification (D := D) text with
  | some n => .notification n
  | none => .dropped

/-- `processMessage`, 80-134: what is done with a text. `Deserialize` of a response always succeeds (Rpc model). -/
def eventOf (hasHandler : Bool) (text : Bytes) : Event D :=
  match classify text with
  | .response => .resolve (deResponse text)
  | .request =>
    match deRequest (D := D) text with
    | some req => if hasHandler then .request req else asNotification text
    | none => asNotification text
  | _ => asNotification text

/-- One endpoint. `log`, `events`, `asked`, `answered` are history variables. -/
structure Endpoint (D : Type) where
  connected : Bool
  hasHandler : Bool
  queue : List Bytes
  /-- The message popped by the processing thread and not yet handled. -/
  current : Option Bytes
  tab : PTab (Outcome D)
  counter : Nat
  /-- `SendRequest` calls between inserting the promise and `sendToPeer`: key and request. -/
  sending : List (Bytes × Request D)
  /-- Requests being handled on detached threads. -/
  jobs : List (Request D)
  /-- Texts this endpoint has put into the peer's queue. -/
  log : List Bytes
  /-- What this endpoint has done with the messages it processed. -/
  events : List (Event D)
  /-- Requests passed to `SendRequest`, with the id actually used. -/
  asked : List (Nat × Request D)
  /-- Requests whose handler finished, with what it did. -/
  answered : List (Request D × HandlerOutcome D)
  /-- Calls of the error handler. -/
  errors : Nat

/-- Before `Start`. -/
def Endpoint.init (hasHandler : Bool) : Endpoint D :=
  ⟨false, hasHandler, [], none, PTab.init, 0, [], [], [], [], [], [], 0⟩

/-- A pair made by `CreatePair` (180-188). -/
structure Net (D : Type) where
  a : Endpoint D
  b : Endpoint D

def Net.init (ha hb : Bool) : Net D := ⟨.init ha, .init hb⟩

/-- The endpoint named by a side, and its update. -/
def Net.get (s : Net D) : Bool → Endpoint D
  | false => s.a
  | true => s.b

def Net.upd (s : Net D) (x : Bool) (f : Endpoint D → Endpoint D) : Net D :=
  match x with
  | false => { s with a := f s.a }
  | true => { s with b := f s.b }

/-- `generateRequestId` (174) and the id selection of `SendRequest` (224-238): the id the request goes out with, and the
counter afterwards. -/
def chooseId (id : RpcId) (counter : Nat) : RpcId × Nat :=
  let c := (counter + 1) % 2 ^ 32
  match id with
  | .str s => if s = [] then (.str (lit "mem-req-" ++ natDec c), c) else (id, counter)
  | .int _ => (id, counter)
  | .null => (.str (lit "mem-req-" ++ natDec c), c)

/-- Atomic steps; the first argument is the side acting. -/
inductive Op (D : Type) where
  | start (x : Bool)
  | closeFlag (x : Bool)
  | closeFail (x : Bool)
  | send (x : Bool) (r : Request D)
  | deliver (x : Bool) (i : Nat)
  | notify (x : Bool) (n : Notification D)
  | pop (x : Bool)
  | handle (x : Bool)
  | reply (x : Bool) (i : Nat) (out : HandlerOutcome D)

/-- `sendToPeer`, 164-172, successful case: the peer's queue and our log grow. -/
def Net.push (s : Net D) (x : Bool) (text : Bytes) : Net D :=
  (s.upd x (fun e => { e with log := e.log ++ [text] })).upd (!x) (fun e => { e with queue := e.queue ++ [text] })

/-- 224-244: choose the id, insert the promise. -/
def Endpoint.send (e : Endpoint D) (r : Request D) : Endpoint D :=
  let ic := chooseId r.id e.counter
  let r' := { r with id := ic.1 }
  { e with counter := ic.2, tab := e.tab.insert (idText ic.1) .broken, sending := e.sending ++ [(idText ic.1, r')],
           asked := e.asked ++ [(e.tab.nextFut, r')] }

/-- 245-257: `sendToPeer`; on failure complete the promise. -/
def Net.deliver (s : Net D) (x : Bool) (i : Nat) : Net D :=
  match (s.get x).sending[i]? with
  | none => s
  | some (key, r) =>
    let s' := s.upd x (fun e => { e with sending := e.sending.eraseIdx i })
    if (s.get (!x)).connected then s'.push x (serRequest r)
    else s'.upd x (fun e => { e with tab := e.tab.complete key (.peerGone r.id) })

/-- `SendNotification`, 261-272. -/
def Net.notify (s : Net D) (x : Bool) (n : Notification D) : Net D :=
  if (s.get (!x)).connected then s.push x (serNotification n)
  else s.upd x (fun e => { e with errors := e.errors + 1 })

/-- 69-72. -/
def Endpoint.pop (e : Endpoint D) : Endpoint D :=
  match e.current, e.queue with
  | none, t :: q => if e.connected then { e with current := some t, queue := q } else e
  | _, _ => e

/-- What an event does to the endpoint: resolving (136-150), spawning a handler thread (102-120), calling the notification
handler. -/
def Endpoint.apply (e : Endpoint D) (ev : Event D) : Endpoint D :=
  match ev with
  | .resolve r => { e with tab := e.tab.complete (idText r.id) (.response r), events := e.events ++ [ev] }
  | .request r => { e with jobs := e.jobs ++ [r], events := e.events ++ [ev] }
  | _ => { e with events := e.events ++ [ev] }

/-- 73: `processMessage`. -/
def Endpoint.handle (e : Endpoint D) : Endpoint D :=
  match e.current with
  | none => e
  | some t => { e.apply (eventOf e.hasHandler t) with current := none }

/-- 102-120: the handler thread of the `i`-th job finishes and sends the response (dropped if the peer is gone). -/
def Net.reply (s : Net D) (x : Bool) (i : Nat) (out : HandlerOutcome D) : Net D :=
  match (s.get x).jobs[i]? with
  | none => s
  | some req =>
    let s' := s.upd x (fun e => { e with jobs := e.jobs.eraseIdx i, answered := e.answered ++ [(req, out)] })
    if (s.get (!x)).connected then s'.push x (serResponse (replyFor req out)) else s'

/-- The effect of a step. -/
def Net.step (s : Net D) : Op D → Net D
  | .start x => s.upd x (fun e => { e with connected := true })
  | .closeFlag x => s.upd x (fun e => { e with connected := false })
  | .closeFail x => s.upd x (fun e => { e with tab := e.tab.closeAll .closed })
  | .send x r => s.upd x (fun e => e.send r)
  | .deliver x i => s.deliver x i
  | .notify x n => s.notify x n
  | .pop x => s.upd x Endpoint.pop
  | .handle x => s.upd x Endpoint.handle
  | .reply x i out => s.reply x i out

/-- An execution. -/
def Net.run (s : Net D) (ops : List (Op D)) : Net D := ops.foldl Net.step s

end Verif.InMemory
