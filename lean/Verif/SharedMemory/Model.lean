import Verif.Base.Promise
import Verif.Rpc.Model
import Verif.Stdio.PendingModel

/-!
Model of a pair of shared-memory transports, src/mcp/SharedMemoryTransport.cpp: the side that creates the queues (`false`) and the side
that opens them (`true`).

Atomic steps are the critical sections of the code: the check of `SendRequest`, filing the promise, `sendPayload`, taking a message from
the queue, handling it, a handler thread finishing, the end of the loop, and the parts of `Close`. A queue of Boost.Interprocess is a list
with a bound on its length and on the size of a message: sending a larger message throws, receiving into a buffer smaller than the largest
message throws, and messages of one priority are received in the order sent. The 200 ms `timed_send` waits is not counted: a send fails
only in a state in which the queue is full. The creator starts once; the opener may start again after its loop has ended. Not modelled:
queues left by an earlier process, a third process on the queues, destruction, handlers that throw anything but a `std::exception`,
exceptions of notification handlers.
-/

set_option linter.unusedSectionVars false

namespace Verif.Shm

open Verif.Stdio (idText)

variable {D : Type} [DblFmt D]

/-- `Options::maxMessageSize` of the two sides and `maxMessageCount` of the creator. -/
structure Cfg where
  sizeA : Nat
  sizeB : Nat
  count : Nat

/-- `maxMessageSize` of a side. -/
def Cfg.size (c : Cfg) : Bool → Nat
  | false => c.sizeA
  | true => c.sizeB

/-- How a request future completes. `refused`: 355-362; `tooLarge`: 414; `sendFailed`: 428; `peerGone`: 135; `closed`: 282 and 338. -/
inductive Outcome (D : Type) where
  | response (r : Response D)
  | refused (id : RpcId)
  | tooLarge (id : RpcId)
  | sendFailed (id : RpcId)
  | peerGone (id : Bytes)
  | closed (id : Bytes)
  | broken
  deriving DecidableEq

/-- What processing one message text amounts to. -/
inductive Event (D : Type) where
  | resolve (r : Response D)
  | request (r : Request D)
  | notification (n : Notification D)
  | disconnected
  | dropped
  deriving DecidableEq

/-- The method the creator announces its end with, 127 and 300. -/
def byeMethod : Bytes := lit "transport/disconnected"

/-- The tail of `processMessage`, 122-146. -/
def asNotification (text : Bytes) : Event D :=
  match deNotification (D := D) text with
  | some n => if n.method = byeMethod then .disconnected else .notification n
  | none => .dropped

/-- The search of 86. -/
def looksLikeAnswer (text : Bytes) : Bool := containsSub (lit "\"result\"") text || containsSub (lit "\"error\"") text

/-- `processMessage`, 83-147: what is done with a text. `Deserialize` of a response always succeeds (Rpc model). -/
def eventOf (hasHandler : Bool) (text : Bytes) : Event D :=
  if looksLikeAnswer text then .resolve (deResponse text)
  else if containsSub (lit "\"method\"") text && decide (classify text = .request) then
    match deRequest (D := D) text with
    | some req => if hasHandler then .request req else asNotification text
    | none => asNotification text
  else asNotification text

/-- One endpoint. `log`, `events`, `asked` and `answered` are history variables. -/
structure Endpoint (D : Type) where
  connected : Bool
  /-- The processing thread has not reached its end. -/
  loop : Bool
  /-- `sendMq` and `recvMq` exist. -/
  opened : Bool
  hasHandler : Bool
  /-- `recvMq`. -/
  queue : List Bytes
  /-- The message taken by the processing thread and not yet handled. -/
  current : Option Bytes
  tab : PTab (Outcome D)
  counter : Nat
  /-- `SendRequest` calls between the check and filing the promise. -/
  tickets : List (Request D)
  /-- `SendRequest` calls between filing the promise and sending: key and request. -/
  sending : List (Bytes × Request D)
  /-- Requests being handled on detached threads. -/
  jobs : List (Request D)
  /-- Texts this endpoint has put into the peer's queue. -/
  log : List Bytes
  /-- What this endpoint has done with the messages it processed. -/
  events : List (Event D)
  /-- Requests filed, with the future and the id used. -/
  asked : List (Nat × Request D)
  /-- Requests whose handler finished, with what it did and whether the answer was put into the queue. -/
  answered : List (Request D × HandlerOutcome D × Bool)

def Endpoint.init (hasHandler : Bool) : Endpoint D :=
  ⟨false, false, false, hasHandler, [], none, PTab.init, 0, [], [], [], [], [], [], []⟩

/-- The two sides; `removed`: the creator has removed the queues. -/
structure Net (D : Type) where
  a : Endpoint D
  b : Endpoint D
  removed : Bool

def Net.init (ha hb : Bool) : Net D := ⟨.init ha, .init hb, false⟩

/-- The endpoint named by a side, and its update. -/
def Net.get (s : Net D) : Bool → Endpoint D
  | false => s.a
  | true => s.b

def Net.upd (s : Net D) (x : Bool) (f : Endpoint D → Endpoint D) : Net D :=
  match x with
  | false => { s with a := f s.a }
  | true => { s with b := f s.b }

/-- The increment of 384-390. -/
def nextCount (n : Nat) : Nat := if n = 2 ^ 64 - 1 then 1 else n + 1

/-- The id selection of `SendRequest`, 365-398: the id the request goes out with, and the counter afterwards. -/
def chooseId (id : RpcId) (counter : Nat) : RpcId × Nat :=
  let fresh : RpcId × Nat := (.str (lit "shm-req-" ++ natDec (nextCount counter)), nextCount counter)
  match id with
  | .str s => if s = [] then fresh else (id, counter)
  | .int _ => (id, counter)
  | .null => fresh

/-- Atomic steps; the first argument is the side acting. `tick`: another transport of the same process takes an id (the counter is
static, 380). -/
inductive Op (D : Type) where
  | start (x : Bool)
  | send (x : Bool) (r : Request D)
  | file (x : Bool) (i : Nat)
  | deliver (x : Bool) (i : Nat)
  | notify (x : Bool) (n : Notification D)
  | take (x : Bool)
  | handle (x : Bool)
  | reply (x : Bool) (i : Nat) (out : HandlerOutcome D)
  | loopEnd (x : Bool)
  | closeTell
  | closeFlag (x : Bool)
  | closeEnd (x : Bool)
  | tick (x : Bool)

/-- `sendPayload` succeeds, 154-187. -/
def Net.fits (c : Cfg) (s : Net D) (x : Bool) (text : Bytes) : Bool :=
  (s.get x).opened && decide (text.length ≤ c.size x) && decide (text.length ≤ c.sizeA) && decide ((s.get (!x)).queue.length < c.count)

/-- The message enters the peer's queue. -/
def Net.push (s : Net D) (x : Bool) (text : Bytes) : Net D :=
  (s.upd x (fun e => { e with log := e.log ++ [text] })).upd (!x) (fun e => { e with queue := e.queue ++ [text] })

/-- `sendPayload` with its result ignored, 151, 303 and 440. -/
def Net.put (c : Cfg) (s : Net D) (x : Bool) (text : Bytes) : Net D := if s.fits c x text then s.push x text else s

/-- `Start`, 219-292. The opener finds the queues only while they exist. -/
def Net.start (s : Net D) : Bool → Net D
  | false => if s.a.opened then s else { s with a := { s.a with connected := true, loop := true, opened := true } }
  | true => if s.a.opened && !s.removed && !s.b.loop then { s with b := { s.b with connected := true, loop := true, opened := true } } else s

/-- The check of `SendRequest`, 355-363. -/
def Endpoint.send (e : Endpoint D) (r : Request D) : Endpoint D :=
  if e.connected then { e with tickets := e.tickets ++ [r] } else { e with tab := e.tab.immediate (.refused r.id) }

/-- 365-405: choose the id, file the promise. -/
def Endpoint.file (e : Endpoint D) (i : Nat) : Endpoint D :=
  match e.tickets[i]? with
  | none => e
  | some r =>
    let ic := chooseId r.id e.counter
    let r' := { r with id := ic.1 }
    { e with tickets := e.tickets.eraseIdx i, counter := ic.2, tab := e.tab.insert (idText ic.1) .broken,
             sending := e.sending ++ [(idText ic.1, r')], asked := e.asked ++ [(e.tab.nextFut, r')] }

/-- 407-433: send; on failure complete the promise. -/
def Net.deliver (c : Cfg) (s : Net D) (x : Bool) (i : Nat) : Net D :=
  match (s.get x).sending[i]? with
  | none => s
  | some (key, r) =>
    let s' := s.upd x (fun e => { e with sending := e.sending.eraseIdx i })
    if s.fits c x (serRequest r) then s'.push x (serRequest r)
    else s'.upd x (fun e => { e with
      tab := e.tab.complete key (if c.size x < (serRequest r).length then .tooLarge r.id else .sendFailed r.id) })

/-- 252-272: the buffer is smaller than the messages of the queue may be, or a message is taken. -/
def Endpoint.take (c : Cfg) (x : Bool) (e : Endpoint D) : Endpoint D :=
  if e.loop && e.connected && e.current.isNone then
    if c.size x < c.sizeA then { e with connected := false }
    else match e.queue with
      | [] => e
      | t :: q => { e with current := some t, queue := q }
  else e

/-- What an event does: resolving (189-207), starting a handler thread (99-117), noting that the peer is gone (128-139). -/
def Endpoint.apply (e : Endpoint D) (ev : Event D) : Endpoint D :=
  match ev with
  | .resolve r => { e with tab := e.tab.complete (idText r.id) (.response r), events := e.events ++ [ev] }
  | .request r => { e with jobs := e.jobs ++ [r], events := e.events ++ [ev] }
  | .disconnected => { e with connected := false, tab := e.tab.closeAll .peerGone, events := e.events ++ [ev] }
  | _ => { e with events := e.events ++ [ev] }

/-- 273: `processMessage`. -/
def Endpoint.handle (e : Endpoint D) : Endpoint D :=
  match e.current with
  | none => e
  | some t => { e.apply (eventOf e.hasHandler t) with current := none }

/-- 100-116: the handler of the `i`-th job finishes and the answer is sent, if it can be. -/
def Net.reply (c : Cfg) (s : Net D) (x : Bool) (i : Nat) (out : HandlerOutcome D) : Net D :=
  match (s.get x).jobs[i]? with
  | none => s
  | some req =>
    let ok := s.fits c x (serResponse (replyFor req out))
    let s' := s.upd x (fun e => { e with jobs := e.jobs.eraseIdx i, answered := e.answered ++ [(req, out, ok)] })
    if ok then s'.push x (serResponse (replyFor req out)) else s'

/-- 275-286: the loop ends. -/
def Endpoint.loopEnd (e : Endpoint D) : Endpoint D :=
  if e.loop && !e.connected && e.current.isNone then { e with loop := false, tab := e.tab.closeAll .closed } else e

/-- 297-307: what the creator says when it closes. -/
def byeText : Bytes := serNotification (⟨byeMethod, some (.obj [])⟩ : Notification D)

/-- 318-342, after the loop has ended. -/
def Net.closeEnd (s : Net D) (x : Bool) : Net D :=
  if (s.get x).loop then s
  else { s.upd x (fun e => { e with tab := e.tab.closeAll .closed }) with removed := s.removed || !x }

/-- The effect of a step. -/
def Net.step (c : Cfg) (s : Net D) : Op D → Net D
  | .start x => s.start x
  | .send x r => s.upd x (fun e => e.send r)
  | .file x i => s.upd x (fun e => e.file i)
  | .deliver x i => s.deliver c x i
  | .notify x n => s.put c x (serNotification n)
  | .take x => s.upd x (Endpoint.take c x)
  | .handle x => s.upd x Endpoint.handle
  | .reply x i out => s.reply c x i out
  | .loopEnd x => s.upd x Endpoint.loopEnd
  | .closeTell => s.put c false (byeText (D := D))
  | .closeFlag x => s.upd x (fun e => { e with connected := false })
  | .closeEnd x => s.closeEnd x
  | .tick x => s.upd x (fun e => { e with counter := nextCount e.counter })

/-- An execution. -/
def Net.run (c : Cfg) (s : Net D) (ops : List (Op D)) : Net D := ops.foldl (Net.step c) s

end Verif.Shm
