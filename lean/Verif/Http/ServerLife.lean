import Verif.Base.Bytes

/-!
Model of the life of an HTTP server, src/mcp/HTTPServer.cpp: `Start` (1029-1046), `Stop` (1048-1085), `~Impl` (109-120), the accept loop (951-1020), the connections
(`session_plain` 406-507, `session_tls` 509-600, `coMakeResponse` 938-949) and the threads of the event streams (436-479).

Threads: the caller of `Start`, `Stop` and the destructor; the io thread, which runs the coroutines of the accept loop and of the connections one at a time; a thread
of `std::async` for every request that is handled; a thread for every event stream. `io_context::stop` makes `run` return before the next handler, and so does every
later `run`, since nothing calls `restart`; `run` also returns when there is nothing left to wait for, and leaves the context stopped.

What is simplified: one of `Start`, `Stop` and the destructor at a time, none of them called on a thread of the server; the promise of `Start` is set up in one step (the thread
starts last); what a handler does is a sequence of uses of the members; a session is the flag `closed`, the number of queued messages and whether the map has it; messages for a
session that the map has lost are left out. Reads of `acceptor` by `Stop` while the io thread writes it (a data race) are not distinguished. How a socket operation
ends is an input. `wait_for` with its time limit of 500 ms is one step that may come at any time.
-/

namespace Verif.Http

/-- The io thread: not joinable; before `co_spawn`; in `run`; ended, not joined. -/
inductive HlIo where
  | none | entry | run | ended
  deriving DecidableEq

/-- The accept loop: there is none; spawned; in `async_resolve`; in `async_accept`; over. -/
inductive HlAccept where
  | absent | queued | resolving | listening | over
  deriving DecidableEq

/-- A connection: reads the request; its handler runs on a thread; the thread is done; writes; over. -/
inductive HlConn where
  | reading | handling | replied | writing | over
  deriving DecidableEq

/-- The thread of an event stream of a session: in `write`; at the test of `running`; in `wait_for`; ended, not joined. -/
inductive HlSse where
  | write | top | wait | ended
  deriving DecidableEq

/-- The future of a `Start`. -/
inductive HlFut where
  | waiting | ready | broken
  deriving DecidableEq

structure HlSession where
  closed : Bool
  queued : Nat
  known : Bool
  deriving DecidableEq

/-- Where the call stands: none; in `Stop` before 1051, 1052, 1070, 1073, in the joins 1075 and 1078; in the destructor before 110, in its joins 112 and 117, in the destructor of the
io context; destroyed. -/
inductive HlCall where
  | idle | flag | sweep | close | halt | joinIo | joinSse | dHalt | dJoinIo | dJoinSse | frames | destroyed
  deriving DecidableEq

/-- What can be seen. -/
inductive HlEv where
  | started | listening | failed | stopping | ready | returned
  deriving DecidableEq

/-- The members 50-86. `log` is a history variable. -/
structure Hl where
  running : Bool
  stopped : Bool
  io : HlIo
  accept : HlAccept
  open_ : Bool
  signaled : Bool
  futs : List HlFut
  conns : List HlConn
  sse : List (HlSse × Nat)
  sessions : List HlSession
  call : HlCall
  /-- `std::terminate`. -/
  dead : Bool
  /-- The members are destroyed. -/
  gone : Bool
  /-- A destroyed member was used. -/
  ub : Bool
  log : List HlEv
  deriving DecidableEq

def Hl.init : Hl := ⟨false, false, .none, .absent, false, false, [], [], [], [], .idle, false, false, false, []⟩

/-- How a socket operation of the accept loop ends, or that the port is not a number in range (954-976). -/
inductive HlGo where
  | bad | fail | ok
  deriving DecidableEq

/-- What comes over a connection. -/
inductive HlReq where
  | lost | post
  | stream (session : Nat)
  deriving DecidableEq

/-- What a request handler does with the members. -/
inductive HlUse where
  | look | create
  | remove (session : Nat)
  | push (session : Nat)
  deriving DecidableEq

inductive HlOp where
  | start | stop | destroy
  /-- the call goes on -/
  | caller
  /-- the io thread goes on, `run` returns if it can -/
  | io
  /-- the accept loop is resumed -/
  | accept (o : HlGo)
  /-- connection `c` is resumed -/
  | conn (c : Nat) (r : HlReq)
  /-- the handler of connection `c` goes on -/
  | work (c : Nat) (u : HlUse)
  /-- the thread of the handler ends -/
  | finish (c : Nat)
  /-- the application sends a message -/
  | push (s : Nat)
  /-- the thread of stream `j` goes on -/
  | sse (j : Nat)
  /-- its `write` ends -/
  | wrote (j : Nat) (ok : Bool)
  deriving DecidableEq

/-- `signalReadyOrErrorOnce`, 126-133. -/
def Hl.signal (s : Hl) : Hl :=
  if s.signaled then s else { s with signaled := true, futs := s.futs.dropLast ++ (s.futs.getLast?.map fun _ => HlFut.ready).toList, log := s.log ++ [.ready] }

/-- The handlers 998-1018: the error is told unless the server is being stopped. -/
def Hl.acceptFails (s : Hl) : Hl := { (if s.running then { s with log := s.log ++ [.failed] } else s).signal with accept := .over }

/-- `Start`, 1029-1046. A promise that was not kept is broken by the assignment; the assignment of a thread to one that is joinable ends the process. -/
def Hl.start (s : Hl) : Hl :=
  let futs := s.futs.map (fun x => if x = .waiting then .broken else x) ++ [.waiting]
  if s.io = .none then { s with futs := futs, signaled := false, running := true, io := .entry, log := s.log ++ [.started] }
  else { s with futs := futs, signaled := false, running := true, dead := true, log := s.log ++ [.started] }

/-- There is something to wait for. -/
def Hl.work (s : Hl) : Bool :=
  decide (s.accept = .queued ∨ s.accept = .resolving ∨ s.accept = .listening) || s.conns.any (fun c => decide (c ≠ .over))

/-- The io thread, 1036-1039. -/
def Hl.goIo (s : Hl) : Hl :=
  match s.io with
  | .entry => { s with io := .run, accept := .queued }
  | .run => if s.stopped || !s.work then { s with io := .ended, stopped := true } else s
  | _ => s

/-- The accept loop, 951-1020. -/
def Hl.goAccept (s : Hl) (o : HlGo) : Hl :=
  match s.accept with
  | .queued =>
    match o with
    | .bad => { ({ s with log := s.log ++ [.failed] } : Hl).signal with accept := .over }
    | _ => { s with accept := .resolving }
  | .resolving =>
    match o with
    | .ok =>
      let t := ({ s with open_ := true, log := s.log ++ [.listening] } : Hl).signal
      { t with accept := if t.running then .listening else .over }
    | _ => s.acceptFails
  | .listening =>
    if o = .ok ∧ s.open_ = true then { s with conns := s.conns ++ [.reading], accept := if s.running then .listening else .over }
    else s.acceptFails
  | _ => s

/-- A connection, 406-507. -/
def Hl.goConn (s : Hl) (c : Nat) (r : HlReq) : Hl :=
  match s.conns[c]? with
  | some .reading =>
    match r with
    | .lost => { s with conns := s.conns.set c .over }
    | .post => { s with conns := s.conns.set c .handling }
    | .stream k =>
      match s.sessions[k]? with
      | some x => if x.known then { s with conns := s.conns.set c .over, sse := s.sse ++ [(.write, k)] } else { s with conns := s.conns.set c .writing }
      | none => { s with conns := s.conns.set c .writing }
  | some .replied => { s with conns := s.conns.set c .writing }
  | some .writing => { s with conns := s.conns.set c .over }
  | _ => s

/-- A session is taken from the map and closed, 184-207. -/
def HlSession.shut (x : HlSession) : HlSession := if x.known then ⟨true, x.queued, false⟩ else x

def Hl.use (s : Hl) (u : HlUse) : Hl :=
  if s.gone then { s with ub := true } else
  match u with
  | .look => s
  | .create => { s with sessions := s.sessions ++ [⟨false, 0, true⟩] }
  | .remove k => { s with sessions := s.sessions.modify k HlSession.shut }
  | .push k => { s with sessions := s.sessions.modify k fun x => if x.known then { x with queued := x.queued + 1 } else x }

/-- The thread of an event stream, 445-466. -/
def Hl.goSse (s : Hl) (j : Nat) : Hl :=
  match s.sse[j]? with
  | some (.top, k) => { s with sse := s.sse.set j (if s.running then .wait else .ended, k) }
  | some (.wait, k) =>
    match s.sessions[k]? with
    | some x =>
      if x.closed || !s.running then { s with sse := s.sse.set j (.ended, k) }
      else if x.queued = 0 then { s with sse := s.sse.set j (.top, k) }
      else { s with sse := s.sse.set j (.write, k), sessions := s.sessions.set k { x with queued := x.queued - 1 } }
    | none => s
  | _ => s

def Hl.wrote (s : Hl) (j : Nat) (ok : Bool) : Hl :=
  match s.sse[j]? with
  | some (.write, k) => { s with sse := s.sse.set j (if ok then .top else .ended, k) }
  | _ => s

/-- All threads of event streams can be joined. -/
def Hl.quiet (s : Hl) : Bool := s.sse.all fun x => decide (x.1 = .ended)

/-- `Stop`, 1048-1085, and the destructors. -/
def Hl.caller (s : Hl) : Hl :=
  match s.call with
  | .idle => s
  | .flag => { s with running := false, call := .sweep, log := s.log ++ [.stopping] }
  | .sweep => { s with sessions := s.sessions.map HlSession.shut, call := .close }
  | .close => { s with open_ := false, call := .halt }
  | .halt => { s with stopped := true, call := .joinIo }
  | .joinIo => if s.io = .none ∨ s.io = .ended then { s with io := .none, call := .joinSse } else s
  | .joinSse => if s.quiet then { s with sse := [], call := .idle, log := s.log ++ [.returned] } else s
  | .dHalt => if s.io = .none then { s with call := .dJoinSse } else { s with stopped := true, call := .dJoinIo }
  | .dJoinIo => if s.io = .ended then { s with io := .none, call := .dJoinSse } else s
  | .dJoinSse => if s.quiet then { s with sse := [], gone := true, call := .frames } else s
  | .frames => if s.conns.any (fun c => decide (c = .handling)) then s else { s with conns := [], call := .destroyed }
  | .destroyed => s

def Hl.step (s : Hl) (op : HlOp) : Hl :=
  if s.dead || s.ub then s else
  match op with
  | .start => if s.call = .idle then s.start else s
  | .stop => if s.call = .idle then { s with call := .flag } else s
  | .destroy => if s.call = .idle then { s with call := .dHalt } else s
  | .caller => s.caller
  | .io => s.goIo
  | .accept o => if s.io = .run ∧ s.stopped = false then s.goAccept o else s
  | .conn c r => if s.io = .run ∧ s.stopped = false then s.goConn c r else s
  | .work c u => if s.conns[c]? = some .handling then s.use u else s
  | .finish c => if s.conns[c]? = some .handling then { s with conns := s.conns.set c .replied } else s
  | .push k => if s.call = .idle then s.use (.push k) else s
  | .sse j => s.goSse j
  | .wrote j ok => s.wrote j ok

def Hl.run (s : Hl) (ops : List HlOp) : Hl := ops.foldl Hl.step s

end Verif.Http
