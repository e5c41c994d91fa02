import Verif.Race.Confined
import Verif.Race.Http

/-!
C124: both ends of HTTP may be used from several threads without a data race.
-/

namespace Verif

open Race

/-! ### The transport of the client -/

/-- The mutex that stands for a member. -/
def htMutexOf : HtLoc → Option HtMutex
  | .pendingRequests => some .request
  | .mcpSessionId => some .session
  | .lastResp => some .last
  | _ => none

/-- The members that are written by the constructor and by the setters only. -/
def htSettled : HtLoc → Bool
  | .opts | .sessionId | .negotiatedVersion | .sslCtx | .errorHandler | .notificationHandler | .requestHandler | .caInitOk | .router | .auth => true
  | _ => false

/-- The transport: no race on the waiting requests, the id of the session and the last answer, whatever is called when. Missing: the other members. -/
theorem C124_transport_guarded_partial {x : HtLoc} {m : HtMutex} (h : htMutexOf x = some m) (sy : Bool) (main : List HtFn) (ops : List Op) :
    ¬ Racy sy ((Sys.init (htSetup ++ main.map .call)).run (htProg true) ops).trace x := by
  refine locked_use (m := m) (htProg true) htSetup main (fun k => ?_) ?_ ops
  · cases x <;> cases h <;> cases k <;> decide +kernel
  · cases x <;> cases h <;> decide +kernel

/-- The transport: no race on the handlers, the authenticator and the options when they are set before `Start`. -/
theorem C124_transport_settings_partial {x : HtLoc} (h : htSettled x = true) (sy : Bool) (ops : List Op) : ¬ Racy sy ((Sys.init (htSetup ++ htUse)).run (htProg false) ops).trace x := by
  refine early_sound (htProg false) htSetup htUse (fun k => ?_) (by decide +kernel) ?_ ops
  · cases x <;> cases h <;> cases k <;> decide +kernel
  · cases x <;> cases h <;> decide +kernel

/-! ### The server -/

def hsMutexOf : HsLoc → Option HsMutex
  | .sessions => some .sessions
  | .sseThreads => some .threads
  | .outbound | .pendingRequests | .closed | .nextEventId => some .session
  | _ => none

def hsSettled : HsLoc → Bool
  | .opts | .sslCtx | .requestHandler | .notificationHandler | .errorHandler | .bearer | .listenReady | .router => true
  | _ => false

/-- The server: no race on the sessions, on what waits in a session and on the threads of the streams, whatever is called when. -/
theorem C124_server_sessions_partial {x : HsLoc} {m : HsMutex} (h : hsMutexOf x = some m) (sy : Bool) (main : List HsFn) (ops : List Op) :
    ¬ Racy sy ((Sys.init (hsSetup ++ main.map .call)).run (hsProg true) ops).trace x := by
  refine locked_use (m := m) (hsProg true) hsSetup main (fun k => ?_) ?_ ops
  · cases x <;> cases h <;> cases k <;> decide +kernel
  · cases x <;> cases h <;> decide +kernel

/-- The server: no race on the handlers, the bearer tokens and the options when they are set before `Start` and `Start` is called once. -/
theorem C124_server_settings_partial {x : HsLoc} (h : hsSettled x = true) (sy : Bool) (ops : List Op) : ¬ Racy sy ((Sys.init (hsSetup ++ hsUse)).run (hsProg false) ops).trace x := by
  refine early_sound (hsProg false) hsSetup hsUse (fun k => ?_) (by decide +kernel) ?_ ops
  · cases x <;> cases h <;> cases k <;> decide +kernel
  · cases x <;> cases h <;> decide +kernel

/-! ### Races -/

/-- `initialize` is answered; the thread of `ioc` is about to start the stream; the program calls `Close`, which asks whether there is a thread to join. -/
def htRace : List Op :=
  gos 0 13 ++ [.leave 0] ++ gos 0 4 ++ gos 0 15 ++ (gos 1 3 ++ skips 1 1 ++ gos 1 1 ++ skips 1 1 ++ gos 1 4 ++ gos 1 1 ++ gos 1 4) ++ (gos 0 8 ++ skips 0 1 ++ gos 0 5) ++ gos 1 14

/-- A `Close` while `initialize` is being answered races on the thread of the stream (220-222 and 514). -/
theorem C124_transport_close_counterexample : ∃ ops, Racy true ((Sys.init (htSetup ++ htStart ++ [htSendRequest, htClose])).run (htProg false) ops).trace .sseThread :=
  ⟨htRace, raceAt_racy (i := 33) (j := 40) (by decide +kernel)⟩

/-- The server is started; a connection is answered by thread 2, which makes a session; the program asks whether the server is connected. -/
def hsActiveRace : List Op :=
  gos 0 3 ++ [.leave 0] ++ gos 0 2 ++ gos 0 3 ++ (gos 1 2 ++ skips 1 2 ++ gos 1 2 ++ gos 1 6 ++ gos 1 2 ++ gos 1 8 ++ gos 1 1 ++ skips 1 4 ++ gos 1 3) ++ (skips 2 4 ++ gos 2 6) ++
    gos 0 2 ++ skips 0 1 ++ gos 0 5

/-- `IsConnected` and `GetSessionId` read the id of the active session without the mutex (1094, 1098) under which `initialize` writes it (173). -/
theorem C124_server_active_session_counterexample : ∃ ops, Racy true ((Sys.init (hsSetup ++ hsUse)).run (hsProg false) ops).trace .activeSessionId :=
  ⟨hsActiveRace, raceAt_racy (i := 19) (j := 21) (by decide +kernel)⟩

/-- The program calls `Stop` without waiting for what `Start` returns. -/
def hsStopRace : List Op := gos 0 3 ++ [.leave 0] ++ gos 0 2 ++ gos 0 3 ++ (gos 1 2 ++ skips 1 2) ++ (gos 0 2 ++ skips 0 1 ++ gos 0 2) ++ gos 1 2

/-- `Stop` right after `Start` looks at the acceptor (1074) that the other thread is storing (987). -/
theorem C124_server_stop_counterexample : ∃ ops, Racy true ((Sys.init (hsSetup ++ hsRun ++ [hsStop])).run (hsProg false) ops).trace .acceptor :=
  ⟨hsStopRace, raceAt_racy (i := 10) (j := 11) (by decide +kernel)⟩

/-! ### The theorems are not empty -/

/-- The transport: the id of the session is written by the program and by the thread of `ioc`, a handler is set by the program and read by that thread. -/
example : let τ := ((Sys.init (htSetup ++ htUse)).run (htProg false) (gos 0 14 ++ skips 0 2 ++ gos 0 3 ++ [.leave 0, .leave 0, .leave 0] ++ gos 0 4 ++ gos 1 3 ++ skips 1 1 ++ gos 1 5 ++ gos 1 3 ++
      gos 1 30 ++ gos 1 20)).trace
    htMutexOf .mcpSessionId = some .session ∧ htSettled .errorHandler = true ∧ (0, Ev.write HtLoc.mcpSessionId) ∈ τ ∧ (0, Ev.write HtLoc.errorHandler) ∈ τ ∧ (1, Ev.read HtLoc.errorHandler) ∈ τ := by
  decide +kernel

example : let τ := ((Sys.init (htSetup ++ htStart ++ [htSendRequest, htClose])).run (htProg false) htRace).trace
    (0, Ev.write HtLoc.mcpSessionId) ∈ τ ∧ (1, Ev.write HtLoc.mcpSessionId) ∈ τ := by decide +kernel

/-- The server: a session is made by one thread and looked for by the program; the options are written by the program and read by another thread. -/
example : let τ := ((Sys.init (hsSetup ++ hsUse)).run (hsProg false) (hsActiveRace ++ gos 2 2 ++ gos 0 1 ++ gos 0 8)).trace
    hsMutexOf .sessions = some .sessions ∧ hsSettled .opts = true ∧ (2, Ev.write HsLoc.sessions) ∈ τ ∧ (0, Ev.read HsLoc.sessions) ∈ τ ∧ (0, Ev.write HsLoc.opts) ∈ τ ∧ (1, Ev.read HsLoc.opts) ∈ τ := by
  decide +kernel

end Verif
