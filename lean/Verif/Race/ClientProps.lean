import Verif.Race.Confined
import Verif.Race.Client

/-!
C123: a client may be used from several threads without a data race.
-/

namespace Verif

open Race

/-- The mutex that stands for a member of the client (`ClLoc`). -/
def clMutex : ClLoc → Option ClMutex
  | .toolsCache | .resourcesCache | .templatesCache | .promptsCache => some .cache
  | .cancelMap | .stopSources => some .cancel
  | .outboundTaskKinds => some .outbound
  | .futures => some .group
  | .records | .order | .nextId | .statusCallback => some .store
  | _ => none

/-- The members without a mutex that only settings and `Connect` write. -/
def clSettled : ClLoc → Bool
  | .transport | .clientInfo | .notificationHandlers | .progressHandler | .taskStatusHandler | .errorHandler | .rootsListHandler | .samplingHandler | .samplingHandlerCancelable
  | .elicitationHandler | .validationMode | .listingsCacheTtlMs => true
  | _ => false

theorem clProg_locked {x : ClLoc} {m : ClMutex} (h : clMutex x = some m) (k : ClFn) : (clProg true k).locked x m false = true := by
  cases x <;> cases h <;> cases k <;> decide +kernel

/-- Whatever functions are called, from however many threads, while requests, notifications and errors come in: there is no data race on the caches of the listings, on what is kept to cancel
requests, on the kinds of the tasks at the server, and in the task store. Missing from the claim: the other members. -/
theorem C123_caches_partial {x : ClLoc} {m : ClMutex} (h : clMutex x = some m) (sy : Bool) (main : List ClFn) (ops : List Op) :
    ¬ Racy sy ((Sys.init (clSetup ++ main.map .call)).run (clProg true) ops).trace x := by
  refine locked_use (m := m) (clProg true) clSetup main (clProg_locked h) ?_ ops
  cases x <;> cases h <;> decide +kernel

/-- A program that sets its handlers and calls `Connect` and `Initialize`, from one thread, before anything else, and then calls what it likes from as many threads as it likes: there is no data
race on the handlers, the settings and the transport. Missing from the claim: settings made later, and `capabilities` (see the counterexamples). -/
theorem C123_settings_partial {x : ClLoc} (h : clSettled x = true) (sy : Bool) (ops : List Op) : ¬ Racy sy ((Sys.init (clSetup ++ clUse)).run (clProg false) ops).trace x := by
  refine early_sound (clProg false) clSetup clUse (fun k => ?_) (by decide +kernel) ?_ ops
  · cases x <;> cases h <;> cases k <;> decide +kernel
  · cases x <;> cases h <;> decide +kernel

/-- When `Initialize` is called once, there is no data race on what the server said it can do: only what follows the answer of the server has to do with it. -/
theorem C123_server_capabilities_partial (sy : Bool) (ops : List Op) : ¬ Racy sy ((Sys.init (clSetup ++ clUse)).run (clProg false) ops).trace .serverCapabilities := by
  refine alone_sound (x := ClLoc.serverCapabilities) (k₀ := ClFn.initialized) (clProg false) (clSetup ++ [clConnectRun, .write .capabilities, clSend]) [.call .user] (fun k hk => ?_)
    (by decide +kernel) (by decide +kernel) ops
  cases k <;> first | decide +kernel | exact absurd rfl hk

/-! ### Races -/

/-- A client is made and connected with no settings. Threads: 0 the program, 1 the transport, 2 what follows `Start`. -/
def clConnected : List Op := gos 0 7 ++ [.leave 0] ++ gos 0 5 ++ gos 0 7

/-- Between `Connect` and `Initialize` the server sends `tasks/get`. -/
def clCapRace : List Op := clConnected ++ gos 1 1 ++ skips 1 1 ++ gos 1 2 ++ skips 1 1 ++ gos 1 3 ++ gos 0 1

/-- `Initialize` stores the capabilities of the client (1120) when the transport already runs; a server that asks for a task without waiting makes the client read them (709). No program can avoid it:
`Initialize` needs the transport that `Connect` has started. Counting also every order that atomics may give. -/
theorem C123_capabilities_counterexample : ∃ ops, Racy true ((Sys.init (clSetup ++ clUse)).run (clProg false) ops).trace .capabilities :=
  ⟨clCapRace, raceAt_racy (i := 10) (j := 11) (by decide +kernel)⟩

/-- The server has sent a notification; the program sets a handler for another one. -/
def clHandlerRace : List Op := clConnected ++ gos 1 1 ++ skips 1 2 ++ gos 1 2 ++ skips 1 4 ++ gos 1 1 ++ skips 1 1 ++ gos 1 2 ++ gos 0 1

/-- `SetNotificationHandler` after `Connect` inserts into the map (2249) in which a notification looks for its handler (619). -/
theorem C123_late_handler_counterexample : ∃ ops, Racy true ((Sys.init (clSetup ++ [clConnectRun, .write .notificationHandlers])).run (clProg false) ops).trace .notificationHandlers :=
  ⟨clHandlerRace, raceAt_racy (i := 10) (j := 11) (by decide +kernel)⟩

/-- The program asks for the list of tools; the answer comes; the program switches the cache off. -/
def clTtlRace : List Op := clConnected ++ gos 0 17 ++ skips 0 1 ++ gos 0 4 ++ skips 3 5 ++ gos 3 3 ++ gos 0 2

/-- One thread of the program is enough: it calls `ListTools`, does not wait for the answer, and calls `SetListingsCacheTtlMs`; what follows the answer reads the time to live (1512) while it is
written (2301, 2309). -/
theorem C123_ttl_counterexample : ∃ ops, Racy true ((Sys.init (clSetup ++ [clConnectRun, clList .toolsCache, clSetTtl])).run (clProg false) ops).trace .listingsCacheTtlMs :=
  ⟨clTtlRace, raceAt_racy (i := 18) (j := 19) (by decide +kernel)⟩

/-- `Initialize` is called twice before the server has answered; the two answers are looked at. -/
def clInitRace : List Op := clConnected ++ gos 0 3 ++ skips 0 1 ++ gos 0 2 ++ gos 0 3 ++ skips 0 1 ++ gos 0 2 ++ gos 3 2 ++ gos 4 2

/-- Two calls of `Initialize` at a time race on what the server said it can do (390-454). -/
theorem C123_two_initializations_counterexample :
    ∃ ops, Racy true ((Sys.init (clSetup ++ [clConnectRun] ++ clInitialize ++ clInitialize)).run (clProg false) ops).trace .serverCapabilities :=
  ⟨clInitRace, raceAt_racy (i := 16) (j := 17) (by decide +kernel)⟩

/-! ### The theorems are not empty -/

/-- The cache of the tools is read by the program, filled by what follows the answer, and marked stale by a notification. -/
example : let τ := ((Sys.init (clSetup ++ [clConnectRun, clList .toolsCache, clSetTtl])).run (clProg false)
      (clTtlRace ++ gos 3 6 ++ (gos 1 1 ++ skips 1 2 ++ gos 1 2 ++ skips 1 4 ++ gos 1 6))).trace
    clMutex .toolsCache = some .cache ∧ (0, Ev.read ClLoc.toolsCache) ∈ τ ∧ (3, Ev.write ClLoc.toolsCache) ∈ τ ∧ (1, Ev.write ClLoc.toolsCache) ∈ τ := by decide +kernel

/-- A handler that the program sets before `Connect` is read by the thread of the transport; what follows `Initialize` writes the capabilities of the server. -/
example : let τ := ((Sys.init (clSetup ++ clUse)).run (clProg false)
      (gos 0 10 ++ [.leave 0, .leave 0] ++ gos 0 5 ++ gos 0 7 ++ (gos 1 1 ++ skips 1 2 ++ gos 1 2 ++ skips 1 4 ++ gos 1 1 ++ skips 1 1 ++ gos 1 2) ++ gos 0 3 ++ skips 0 1 ++ gos 0 2 ++ gos 3 2)).trace
    clSettled .notificationHandlers = true ∧ (0, Ev.write ClLoc.notificationHandlers) ∈ τ ∧ (1, Ev.read ClLoc.notificationHandlers) ∈ τ ∧ (3, Ev.write ClLoc.serverCapabilities) ∈ τ := by decide +kernel

end Verif
