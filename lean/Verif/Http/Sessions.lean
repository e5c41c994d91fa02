import Verif.Base.Promise
import Verif.Rpc.Model

/-!
Model of the sessions of the HTTP server, src/mcp/HTTPServer.cpp 61-77, 150-224, 363-395, the event streams 439-478 (and 543-581 for TLS),
`Stop` 1047-1088, `SendRequest` 1102-1136 and `SendNotification` 1138-1149.

A session object is shared (`std::shared_ptr`): whoever has found it keeps it when it leaves the table. Objects are numbered in order of
their creation and never forgotten; the table maps a session id to an object. Each section under a mutex is one step; a `SendRequest` is
three steps (finding the active session, filing the promise, queueing) between which others may run, and so is an incoming response
(finding the session, delivering). The random id of a new session is a parameter of the step. The wrap-around of the event counter (64
bits) and of the request counter (32 bits) is not modelled.
-/

namespace Verif.Http

variable {D : Type}

/-- The text of an id, as in 368-375 and 1115-1124. -/
def keyText : RpcId → Bytes
  | .str s => s
  | .int i => intDec i
  | .null => []

/-- How a future of `SendRequest` completes: with a response, or with `broken_promise` when its promise is overwritten. -/
inductive SOut (D : Type) where
  | resp (r : Response D)
  | broken

/-- `SessionState`, 61-70; the mutex and the condition variable are the step structure. -/
structure Sess (D : Type) where
  version : Bytes
  queue : List (Nat × Bytes)
  pend : PTab (SOut D)
  closed : Bool
  nextEvent : Nat

/-- A new session, 168-170. -/
def Sess.fresh (version : Bytes) : Sess D := ⟨if version = [] then lit "2025-11-25" else version, [], PTab.init, false, 1⟩

/-- What `SendRequest` and `SendNotification` are given. -/
inductive Outgoing (D : Type) where
  | request (r : Request D)
  | note (n : Notification D)

/-- Where a call of `SendRequest` or `SendNotification` is. -/
inductive SendStage (D : Type) where
  /-- It has found the active session. -/
  | found (obj : Nat) (m : Outgoing D)
  /-- It has filed its promise. -/
  | filed (obj : Nat) (payload : Bytes)
  | finished
  /-- There was no session: the future has the error of 1106-1112. -/
  | refused

/-- The server. `events` lists what the streams took from the queues, in order: the stream, the event and whether the write went
through. `streams` gives the object of each stream, `finds` what each incoming request found under its session id. -/
structure Hs (D : Type) where
  objs : List (Sess D)
  table : List (Bytes × Nat)
  active : Bytes
  counter : Nat
  running : Bool
  sends : List (SendStage D)
  finds : List (Option Nat)
  streams : List Nat
  events : List (Nat × (Nat × Bytes) × Bool)

def Hs.init : Hs D := ⟨[], [], [], 0, true, [], [], [], []⟩

/-- `createSession`, 167-175, with the id drawn. -/
def Hs.create (s : Hs D) (sid version : Bytes) : Hs D :=
  { s with objs := s.objs ++ [Sess.fresh version], table := AMap.put s.table sid s.objs.length, active := sid }

/-- `findSession`, 161-165. -/
def Hs.lookup (s : Hs D) (sid : Bytes) : Option Nat := AMap.get s.table sid

/-- `activeSession`, 177-181. -/
def Hs.activeObj (s : Hs D) : Option Nat := AMap.get s.table s.active

/-- The error of 209-212 and of 1060-1063. -/
def closedOut (text key : Bytes) : SOut D := .resp ⟨.str key, none, some (mkErrorObj Code.internalError text none)⟩

/-- Closing an object, 200-213 and 1057-1066. -/
def Sess.close (x : Sess D) (text : Bytes) : Sess D := { x with closed := true, pend := x.pend.closeAll (closedOut text) }

/-- `removeSession`, 183-215. -/
def Hs.remove (s : Hs D) (sid : Bytes) : Hs D :=
  match AMap.get s.table sid with
  | none => s
  | some o =>
    { s with
      table := AMap.del s.table sid
      active := if s.active = sid then [] else s.active
      objs := s.objs.modify o (·.close (lit "HTTP session closed")) }

/-- `queueOutbound`, 217-224. -/
def Sess.push (x : Sess D) (payload : Bytes) : Sess D :=
  { x with queue := x.queue ++ [(x.nextEvent, payload)], nextEvent := x.nextEvent + 1 }

/-- The delivery in `resolvePendingResponse`, 376-394. -/
def Sess.resolve (x : Sess D) (r : Response D) : Sess D :=
  if keyText r.id = [] then x else { x with pend := x.pend.complete (keyText r.id) (.resp r) }

/-- The first step of a send, 1105-1112 and 1141-1145. -/
def Hs.take (s : Hs D) (m : Outgoing D) : Hs D :=
  { s with sends := s.sends ++ [match s.activeObj with | some o => .found o m | none => .refused] }

/-- The request as it is filed and sent, 1114-1128. -/
def Hs.withId (s : Hs D) (r : Request D) : Request D × Nat :=
  if keyText r.id = [] then ({ r with id := .str (lit "http-server-req-" ++ natDec (s.counter + 1)) }, s.counter + 1) else (r, s.counter)

/-- The next step of a send: filing the promise, 1130-1133, then queueing, 1134; or queueing at once, 1146. -/
def Hs.advance [DblFmt D] (s : Hs D) (c : Nat) : Hs D :=
  match s.sends[c]? with
  | some (.found o (.request r)) =>
    { s with
      objs := s.objs.modify o (fun x => { x with pend := x.pend.insert (keyText (s.withId r).1.id) .broken })
      counter := (s.withId r).2
      sends := s.sends.set c (.filed o (serRequest (s.withId r).1)) }
  | some (.found o (.note n)) =>
    { s with objs := s.objs.modify o (·.push (serNotification n)), sends := s.sends.set c .finished }
  | some (.filed o payload) =>
    { s with objs := s.objs.modify o (·.push payload), sends := s.sends.set c .finished }
  | _ => s

/-- An incoming request that looks its session up, 417 and 839. -/
def Hs.find (s : Hs D) (sid : Bytes) : Hs D := { s with finds := s.finds ++ [s.lookup sid] }

/-- ... delivers a response, 856-860, ... -/
def Hs.answer (s : Hs D) (f : Nat) (r : Response D) : Hs D :=
  match s.finds[f]? with
  | some (some o) => { s with objs := s.objs.modify o (·.resolve r) }
  | _ => s

/-- ... or opens an event stream, 437-439. -/
def Hs.openStream (s : Hs D) (f : Nat) : Hs D :=
  match s.finds[f]? with
  | some (some o) => { s with streams := s.streams ++ [o] }
  | _ => s

/-- One round of a stream, 448-467: the event taken and whether its write succeeds. -/
def Hs.pump (s : Hs D) (k : Nat) (ok : Bool) : Hs D :=
  match s.streams[k]? with
  | none => s
  | some o =>
    match s.objs[o]? with
    | none => s
    | some x =>
      if x.closed || !s.running then s
      else
        match x.queue with
        | [] => s
        | e :: rest => { s with objs := s.objs.modify o (fun x => { x with queue := rest }), events := s.events ++ [(k, e, ok)] }

/-- The object of one table entry closed, the loop body of 1056-1067. -/
def closeEntry (table : List (Bytes × Nat)) (text : Bytes) (l : List (Sess D)) (sid : Bytes) : List (Sess D) :=
  match AMap.get table sid with
  | some o => l.modify o (·.close text)
  | none => l

/-- `Stop`, 1047-1070. -/
def Hs.stop (s : Hs D) : Hs D :=
  { s with
    running := false
    objs := (AMap.keys s.table).foldl (closeEntry s.table (lit "Transport closed")) s.objs
    table := []
    active := [] }

inductive HsOp (D : Type) where
  | create (sid version : Bytes)
  | remove (sid : Bytes)
  | take (m : Outgoing D)
  | advance (c : Nat)
  | find (sid : Bytes)
  | answer (f : Nat) (r : Response D)
  | openStream (f : Nat)
  | pump (k : Nat) (ok : Bool)
  | stop

def Hs.step [DblFmt D] (s : Hs D) : HsOp D → Hs D
  | .create sid v => s.create sid v
  | .remove sid => s.remove sid
  | .take m => s.take m
  | .advance c => s.advance c
  | .find sid => s.find sid
  | .answer f r => s.answer f r
  | .openStream f => s.openStream f
  | .pump k ok => s.pump k ok
  | .stop => s.stop

def Hs.run [DblFmt D] (s : Hs D) (ops : List (HsOp D)) : Hs D := ops.foldl Hs.step s

end Verif.Http
