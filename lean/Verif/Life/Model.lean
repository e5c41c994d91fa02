/-!
Model of the end of a server or a client: `Server::Impl::coStop` (src/mcp/Server.cpp 1921-1940) and `Client::Impl::coDisconnect` (src/mcp/Client.cpp 1098-1112), which
close the transport and then wait for the workers of the tasks (`BackgroundTaskGroup`, src/mcp/TaskSupport.h 294-341), beside the threads that serve requests; and
the destruction of the server (Server.cpp 2739-2750).

One step is one stretch of a thread between two points where others may come in; an execution is an arbitrary list of steps. Three transports: in-memory
(src/mcp/InMemoryTransport.cpp), shared memory (src/mcp/SharedMemoryTransport.cpp), stdio (src/mcp/StdioTransport.cpp); `Kind` has what they differ in.

What is simplified:

* a handler is the tree of the requests it sends to the other side and waits for (`Server.cpp` 2331-2731: `RequestCreateMessage`, `RequestElicitation`,
  `RequestRootsList`, `Ping`); an error response and an exception are both `false`. Waiting without end for anything else is left out;
* requests are what their handlers do: `call` for a handler run by the thread that serves the request, `task` for a tool called as a task (877-918), whose handler is
  run by a worker;
* one `Stop` (or `Disconnect`), nobody calls `Start` (or `Connect`) again; the keepalive thread (see `Server/Settings`) is left out;
* the time limits of the stdio transport are steps that may happen at any time;
* the destruction of the members of the server is one step: it happens when the futures of the group have let it (a `std::future` from `std::async` waits in its
  destructor). The transport is the first member and goes last (153), after its own destructor has waited for its thread where it does.
-/

namespace Verif.Life

/-- The transports. -/
inductive Kind where
  | memory | shared | stdio
  deriving DecidableEq

/-- `SendRequest` fails at once when its own side is closed: SharedMemoryTransport.cpp 354-364, StdioTransport.cpp 1154-1163. The in-memory transport does not look
(InMemoryTransport.cpp 220-261). -/
def Kind.refuses : Kind → Bool
  | .memory => false
  | .shared => true
  | .stdio => true

/-- `SendRequest` fails at once when the other side is closed: InMemoryTransport.cpp 164-172, 247-258. The other two cannot know. -/
def Kind.knows : Kind → Bool
  | .memory => true
  | .shared => false
  | .stdio => false

/-- `Close` waits for the thread that reads messages: SharedMemoryTransport.cpp 309-316, StdioTransport.cpp 1090-1107. The in-memory transport does not
(InMemoryTransport.cpp 198-215). -/
def Kind.waits : Kind → Bool
  | .memory => false
  | .shared => true
  | .stdio => true

/-- `Close` gives the wait up after 500 ms and leaves the thread to itself: StdioTransport.cpp 1096-1105. -/
def Kind.givesUp : Kind → Bool
  | .stdio => true
  | _ => false

/-- Each request has a thread of its own: InMemoryTransport.cpp 102-120, SharedMemoryTransport.cpp 99-117. With the stdio transport the reading thread serves them
(StdioTransport.cpp 255-265). -/
def Kind.apart : Kind → Bool
  | .stdio => false
  | _ => true

/-- A handler: it returns, or it sends a request to the other side and goes on with what it got (`true`: a result). -/
inductive Prog where
  | ret
  | ask (k : Bool → Prog)

/-- A request of the other side. -/
inductive Job where
  | call (p : Prog)
  | task (p : Prog)

/-- Where a thread stands: it has a request to serve; it is in a handler; `SendRequest` has found its side connected; it waits for the promise in the table of
pending requests; it has ended. -/
inductive Th where
  | start (j : Job)
  | run (p : Prog)
  | checked (k : Bool → Prog)
  | waiting (k : Bool → Prog)
  | over

/-- Where `Stop` stands: not called; the transport is being closed, its flag is down (`closing`), its pending requests have been failed (`swap`); `WaitAll` waits for the
workers in the list; the future is ready. -/
inductive Stop where
  | idle
  | closing
  | swap
  | joining (l : List Nat)
  | done

/-- A server (or client) with its transport. `peer`: the other side is connected; `loop`: the thread that reads messages is in its loop; `taken`: the message it took from the queue and
has not given to a thread yet; `group`: the futures of the group, by number of worker; `gone`: the server has been destroyed; `ub`: something of it was used afterwards. -/
structure S where
  connected : Bool
  peer : Bool
  loop : Bool
  queue : List Job
  taken : Option Job
  reqs : List Th
  works : List Th
  group : List Nat
  stop : Stop
  gone : Bool
  ub : Bool

/-- After `Start`. -/
def S.init : S := ⟨true, true, true, [], none, [], [], [], .idle, false, false⟩

/-- The thread has ended. -/
def Th.isOver : Th → Bool
  | .over => true
  | _ => false

/-- Failing a pending request: the promise gets an error response (InMemoryTransport.cpp 204-213, SharedMemoryTransport.cpp 331-341, StdioTransport.cpp 1132-1143). -/
def Th.failed : Th → Th
  | .waiting k => .run (k false)
  | t => t

/-- Failing all of them. -/
def S.failAll (s : S) : S := { s with reqs := s.reqs.map Th.failed, works := s.works.map Th.failed }

/-- Something of the server is used. -/
def S.touch (s : S) : S := if s.gone then { s with ub := true } else s

/-- TaskSupport.h 296-300, 320-340, `Add`: futures that are ready are dropped, the new one is appended. -/
def S.add (s : S) (p : Prog) : S :=
  { s with works := s.works ++ [.run p], group := s.group.filter (fun i => !((s.works[i]?.map Th.isOver).getD false)) ++ [s.works.length] }

/-- One stretch of a thread; the second component is the handler of a task it starts. `start`: Server.cpp 1549-1571 with 834-926 and 877-918; `ask`: the first check of
`SendRequest`, then the entry in the table and the sending. -/
def S.move (κ : Kind) (s : S) : Th → Th × Option Prog
  | .start (.call p) => (.run p, none)
  | .start (.task p) => (.over, some p)
  | .run .ret => (.over, none)
  | .run (.ask k) => if κ.refuses && !s.connected then (.run (k false), none) else (.checked k, none)
  | .checked k => if κ.knows && !s.peer then (.run (k false), none) else (.waiting k, none)
  | .waiting k => (.waiting k, none)
  | .over => (.over, none)

/-- A thread that waits or has ended uses nothing. -/
def Th.idle : Th → Bool
  | .waiting _ => true
  | .over => true
  | _ => false

/-- The serving thread `i` goes on. -/
def S.act (κ : Kind) (s : S) (i : Nat) : S :=
  match s.reqs[i]? with
  | none => s
  | some t =>
    if t.idle then s
    else
      let r := s.move κ t
      let s' := { s.touch with reqs := s.reqs.set i r.1 }
      match r.2 with
      | none => s'
      | some p => s'.add p

/-- The worker `i` goes on; its last stretch puts the result into the task store (883-911). -/
def S.work (κ : Kind) (s : S) (i : Nat) : S :=
  match s.works[i]? with
  | none => s
  | some t => if t.idle then s else { s.touch with works := s.works.set i (s.move κ t).1 }

/-- A response or a time limit ends the wait of a thread. -/
def Th.answered (b : Bool) : Th → Th
  | .waiting k => .run (k b)
  | t => t

/-- No serving thread is under way. -/
def S.quiet (s : S) : Bool := s.reqs.all Th.isOver

/-- What may happen. `request`: the other side sends a request; `take`, `give`, `endLoop`: the reading thread takes a message, gives it to a thread, leaves its loop;
`act`, `work`: a serving thread or worker goes on; `answer w i b`: the wait of thread `i` (a worker when `w`) ends; `peerDown`: the other side closes; `lost`: the
connection ends without `Close` (SharedMemoryTransport.cpp 127-128, 266; the end of the input or an error of the stdio transport); `stop`, `fail`, `swap`, `join`: the
parts of `Stop`; `destroy`: the application destroys the server, not while `Stop` is under way. -/
inductive Op where
  | request (j : Job)
  | take
  | give
  | endLoop
  | act (i : Nat)
  | work (i : Nat)
  | answer (w : Bool) (i : Nat) (b : Bool)
  | peerDown
  | lost
  | stop
  | fail (late : Bool)
  | swap
  | join
  | destroy

/-- Server.cpp 1932-1938: `Close` lowers the flag first (InMemoryTransport.cpp 201, SharedMemoryTransport.cpp 308, StdioTransport.cpp 1042). -/
def S.stopOp (s : S) : S :=
  match s.stop with
  | .idle => { s with connected := false, stop := .closing }
  | _ => s

/-- The rest of `Close`: it waits for the reading thread where it does, and fails the pending requests. -/
def S.failOp (κ : Kind) (s : S) (late : Bool) : S :=
  match s.stop with
  | .closing => if !κ.waits || !s.loop || (κ.givesUp && late) then { s.failAll with stop := .swap } else s
  | _ => s

/-- TaskSupport.h 302-307: `WaitAll` takes the futures. -/
def S.swapOp (s : S) : S :=
  match s.stop with
  | .swap => { s with stop := .joining s.group, group := [] }
  | _ => s

/-- TaskSupport.h 308-317: one future after the other. -/
def S.joinOp (s : S) : S :=
  match s.stop with
  | .joining [] => { s with stop := .done }
  | .joining (i :: l) =>
    match s.works[i]? with
    | some .over => { s with stop := .joining l }
    | _ => s
  | _ => s

/-- Server.cpp 2739-2750 with the members of `Impl`. -/
def S.destroyOp (s : S) : S :=
  match s.stop with
  | .idle => if s.group.all (fun i => (s.works[i]?.map Th.isOver).getD true) then { s with gone := true } else s
  | .done => if s.group.all (fun i => (s.works[i]?.map Th.isOver).getD true) then { s with gone := true } else s
  | _ => s

/-- InMemoryTransport.cpp 61-78, SharedMemoryTransport.cpp 249-274, StdioTransport.cpp 255-265: the next message is taken while the side is connected, and, with the stdio transport,
when the last one has been served. -/
def S.takeOp (κ : Kind) (s : S) : S :=
  match s.taken, s.queue with
  | none, j :: q => if s.loop && s.connected && (κ.apart || s.quiet) then { s with taken := some j, queue := q } else s
  | _, _ => s

/-- InMemoryTransport.cpp 102, SharedMemoryTransport.cpp 99; with the stdio transport the reading thread becomes the serving one. -/
def S.giveOp (s : S) : S :=
  match s.taken with
  | some j => { s with taken := none, reqs := s.reqs ++ [.start j] }
  | none => s

/-- The reading thread leaves its loop when its side is no longer connected; with shared memory it fails the pending requests (SharedMemoryTransport.cpp 276-288). With the stdio
transport nothing waits for this (162-172), and the transport may be gone. -/
def S.endLoopOp (κ : Kind) (s : S) : S :=
  match s.taken with
  | some _ => s
  | none =>
    if s.loop && !s.connected && (κ.apart || s.quiet) then
      match κ with
      | .memory => { s with loop := false }
      | .shared => { s.failAll with loop := false }
      | .stdio => { s.touch with loop := false }
    else s

/-- A wait ends: the reading thread has read the response; with the stdio transport it must not be serving a request, or a time limit ends the wait
(StdioTransport.cpp 928-1000). -/
def S.answerOp (κ : Kind) (s : S) (w : Bool) (i : Nat) (b : Bool) : S :=
  if s.loop && !s.gone && (κ.apart || !b || s.quiet) then
    if w then { s with works := s.works.modify i (Th.answered b) } else { s with reqs := s.reqs.modify i (Th.answered b) }
  else s

def S.step (κ : Kind) (s : S) : Op → S
  | .request j => if s.connected then { s with queue := s.queue ++ [j] } else s
  | .take => s.takeOp κ
  | .give => s.giveOp
  | .endLoop => s.endLoopOp κ
  | .act i => s.act κ i
  | .work i => s.work κ i
  | .answer w i b => s.answerOp κ w i b
  | .peerDown => { s with peer := false }
  | .lost => if κ = .memory then s else { s with connected := false }
  | .stop => s.stopOp
  | .fail late => s.failOp κ late
  | .swap => s.swapOp
  | .join => s.joinOp
  | .destroy => s.destroyOp

/-- An execution. -/
def S.run (κ : Kind) (s : S) : List Op → S
  | [] => s
  | op :: ops => (s.step κ op).run κ ops

end Verif.Life
