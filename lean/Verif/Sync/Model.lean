/-!
Model of the handshake between a background thread waiting on a condition variable and a call that stops it:

* `StdioTransport::Close` and the timeout thread: src/mcp/StdioTransport.cpp 930-937 (`cvTimeout.wait(lock, pred)`), 1042-1044
  (`connected = false; cvTimeout.notify_all()`), 1128-1130 (`timeoutThread.join()`);
* `~InMemoryTransport::Impl` and the processing thread: src/mcp/InMemoryTransport.cpp 52-59 and 63-65.

In both, the stopping side clears `connected` and notifies without holding the mutex of the wait. `wait(lock, pred)` is
`while (!pred()) wait(lock)`: evaluating the predicate and blocking both happen under the mutex, but a notifier that does not take the
mutex can run in between. Spurious wakeups are permitted by the standard, never guaranteed, and left out; so are other
notifications (no request is sent and no message arrives while stopping).
-/

namespace Verif.Sync

/-- The waiting thread: about to evaluate the predicate, found it false and about to block, blocked, or finished. -/
inductive Waiter where
  | testing | decided | blocked | finished
  deriving DecidableEq

/-- The stopping call: before clearing the flag, before notifying, joining, returned. -/
inductive Closer where
  | entry | cleared | joining | returned
  deriving DecidableEq

structure St where
  connected : Bool
  waiter : Waiter
  closer : Closer
  deriving DecidableEq

def St.init : St := ⟨true, .testing, .entry⟩

inductive Step where
  | waiter | closer

/-- One step of one of the two threads; a thread that cannot move stays. -/
def St.step (s : St) : Step → St
  | .waiter =>
    match s.waiter with
    | .testing => { s with waiter := if s.connected then .decided else .finished }
    | .decided => { s with waiter := .blocked }
    | .blocked => s
    | .finished => s
  | .closer =>
    match s.closer with
    | .entry => { s with connected := false, closer := .cleared }
    | .cleared => { s with closer := .joining, waiter := if s.waiter = .blocked then .testing else s.waiter }
    | .joining => { s with closer := if s.waiter = .finished then .returned else .joining }
    | .returned => s

def St.run (s : St) (l : List Step) : St := l.foldl St.step s

end Verif.Sync
