import Verif.Base.Bytes

/-!
Model of the life of one transport of an in-memory pair, src/mcp/InMemoryTransport.cpp: `startProcessing` (60-78), `processMessage` (80-134), `enqueueMessage` and `sendToPeer`
(158-172), `Start` (192-198), `Close` (200-217) and `~Impl` (51-58).

Threads: the caller of `Start`, `Close` and the destructor; for each `Start` one thread that takes messages from the queue; one thread, let go at once, for each request. The other
transport of the pair is input: it sends messages and may be destroyed.

What is simplified: one of `Start`, `Close` and the destructor at a time, `Start` and the destructor not on a thread of the transport. What kind a message is and which pending request an
answer belongs to is input (see InMemory/Model); a message is a number. `queueMutex` is held by a thread between the test of its condition and its sleep, and not else longer than one step. No
spurious wakeups.
-/

namespace Verif.InMemory

/-- A thread that takes messages: at the test 62; with the lock at the test of the wait 64; found it false; asleep; at the test 68; has taken a message; in the notification handler;
ended. -/
inductive MlAt where
  | test | look | decided | asleep | drain
  | took (m : Nat)
  | busy
  | ended
  deriving DecidableEq

/-- The thread and its stop token. -/
structure MlWork where
  pos : MlAt
  stop : Bool
  deriving DecidableEq

/-- Where the call stands: none; in the assignment 61, before `request_stop`, in `join`; in `Close` before 204, 206; in the destructor before 53, 54, in the join 56; destroyed. -/
inductive MlCall where
  | idle | swap | swapJoin | notify | fail | dNotify | dStop | dJoin | destroyed
  deriving DecidableEq

/-- What can be seen. -/
inductive MlEv where
  | started | closed
  /-- the notification handler is called with message `m` -/
  | note (m : Nat)
  deriving DecidableEq

/-- The members 28-42. `sent` are the messages that were put into the queue, `taken` those that were taken from it, `log` what can be seen; these are history. `peerGone`: the other
transport is destroyed. -/
structure Ml where
  connected : Bool
  works : List MlWork
  /-- the thread that `processingThread` stands for, and the one that is to take its place -/
  th : Option Nat
  queue : List Nat
  /-- the threads of requests; true: the handler runs -/
  handlers : List Bool
  pending : List Nat
  failed : List Nat
  call : MlCall
  gone : Bool
  peerGone : Bool
  /-- a destroyed transport was used -/
  ub : Bool
  sent : List Nat
  taken : List Nat
  log : List MlEv
  deriving DecidableEq

def Ml.init : Ml := ⟨false, [], none, [], [], [], [], .idle, false, false, false, [], [], []⟩

/-- What `processMessage` makes of a message. -/
inductive MlKind where
  | answer (i : Nat)
  | request
  | notification
  deriving DecidableEq

inductive MlOp where
  | start | close | destroy
  /-- the call goes on -/
  | caller
  /-- a thread that takes messages goes on -/
  | work (j : Nat) (k : MlKind)
  /-- its notification handler returns -/
  | handled (j : Nat)
  /-- the handler of a request returns and its answer is sent -/
  | answered (h : Nat)
  /-- the other transport puts a message into the queue and wakes a thread -/
  | deliver (m : Nat) (wake : Nat)
  /-- `SendRequest` of this one -/
  | send (r : Nat)
  /-- the other transport is destroyed -/
  | peerDies
  deriving DecidableEq

/-- A thread holds `queueMutex`. -/
def Ml.locked (s : Ml) : Bool := s.works.any fun w => decide (w.pos = .decided)

def MlWork.woken (w : MlWork) : MlWork := if w.pos = .asleep then { w with pos := .look } else w

/-- `notify_all`. -/
def Ml.wakeAll (s : Ml) : Ml := { s with works := s.works.map MlWork.woken }

/-- The thread that `notify_one` wakes: thread `i` if it sleeps, else the first that does. -/
def Ml.chosen (s : Ml) (i : Nat) : Option Nat :=
  if (s.works[i]?).any (fun w => decide (w.pos = .asleep)) then some i else s.works.findIdx? fun w => decide (w.pos = .asleep)

/-- A thread that takes messages, 61-77, 80-134. -/
def Ml.goWork (s : Ml) (j : Nat) (k : MlKind) : Ml :=
  match s.works[j]? with
  | some ⟨.test, st⟩ => { s with works := s.works.set j ⟨if s.connected = true ∧ st = false then .look else .ended, st⟩ }
  | some ⟨.look, st⟩ =>
    if s.locked then s else
    { s with works := s.works.set j ⟨if st then .ended else if s.queue ≠ [] ∨ s.connected = false then .drain else .decided, st⟩ }
  | some ⟨.decided, st⟩ => { s with works := s.works.set j ⟨.asleep, st⟩ }
  | some ⟨.drain, st⟩ =>
    if s.locked then s else
    match s.queue with
    | m :: q => if s.connected then { s with queue := q, taken := s.taken ++ [m], works := s.works.set j ⟨.took m, st⟩ } else { s with works := s.works.set j ⟨.test, st⟩ }
    | [] => { s with works := s.works.set j ⟨.test, st⟩ }
  | some ⟨.took m, st⟩ =>
    match k with
    | .answer i => { s with pending := s.pending.eraseIdx i, works := s.works.set j ⟨.drain, st⟩ }
    | .request => { s with handlers := s.handlers ++ [true], works := s.works.set j ⟨.drain, st⟩ }
    | .notification => { s with works := s.works.set j ⟨.busy, st⟩, log := s.log ++ [.note m] }
  | _ => s

/-- `Start`, 192-198; a `jthread` that is assigned to is told to stop and joined, after the new thread was made. -/
def Ml.start (s : Ml) : Ml :=
  let t : Ml := { s with connected := true, works := s.works ++ [⟨.test, false⟩] }
  match s.th with
  | none => { t with th := some s.works.length, log := s.log ++ [.started] }
  | some _ => { t with call := .swap }

/-- Set the stop token of a thread. -/
def Ml.askStop (s : Ml) (j : Nat) : Ml := { s with works := s.works.modify j fun w => { w with stop := true } }

/-- The rest of `Start`, of `Close` and of the destructor. -/
def Ml.goCaller (s : Ml) : Ml :=
  match s.call with
  | .idle => s
  | .swap =>
    match s.th with
    | some j => { s.askStop j with call := .swapJoin }
    | none => s
  | .swapJoin =>
    match s.th with
    | some j => if (s.works[j]?).any (fun w => decide (w.pos = .ended)) then { s with th := some (s.works.length - 1), call := .idle, log := s.log ++ [.started] } else s
    | none => s
  | .notify => { s.wakeAll with call := .fail }
  | .fail => { s with failed := s.failed ++ s.pending, pending := [], call := .idle, log := s.log ++ [.closed] }
  | .dNotify => { s.wakeAll with call := .dStop }
  | .dStop =>
    match s.th with
    | some j => { s.askStop j with call := .dJoin }
    | none => { s with gone := true, call := .destroyed }
  | .dJoin =>
    match s.th with
    | some j => if (s.works[j]?).any (fun w => decide (w.pos = .ended)) then { s with th := none, gone := true, call := .destroyed } else s
    | none => s
  | .destroyed => s

def Ml.step (s : Ml) (op : MlOp) : Ml :=
  if s.ub then s else
  match op with
  | .start => if s.call = .idle then s.start else s
  | .close => if s.call = .idle then { s with connected := false, call := .notify } else s
  | .destroy => if s.call = .idle then { s with connected := false, call := .dNotify } else s
  | .caller => s.goCaller
  | .work j k => if s.gone = true ∧ (s.works[j]?).any (fun w => decide (w.pos ≠ .ended)) = true then { s with ub := true } else s.goWork j k
  | .handled j =>
    match s.works[j]? with
    | some ⟨.busy, st⟩ => { s with works := s.works.set j ⟨.drain, st⟩ }
    | _ => s
  | .answered h =>
    if s.handlers[h]? = some true then
      if s.gone || s.peerGone then { s with ub := true } else { s with handlers := s.handlers.set h false }
    else s
  | .deliver m i =>
    if s.peerGone then s
    else if s.gone then { s with ub := true }
    else if s.connected = false ∨ s.locked = true then s
    else { s with queue := s.queue ++ [m], sent := s.sent ++ [m], works := match s.chosen i with | some j => s.works.modify j MlWork.woken | none => s.works }
  | .send r =>
    if s.gone then s
    else if s.peerGone then { s with ub := true }
    else { s with pending := s.pending ++ [r] }
  | .peerDies => { s with peerGone := true }

def Ml.run (s : Ml) (ops : List MlOp) : Ml := ops.foldl Ml.step s

end Verif.InMemory
