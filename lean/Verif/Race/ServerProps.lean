import Verif.Race.Sound
import Verif.Race.Server

/-!
C121: the functions of a server may be called from several threads, and requests be served at the same time, without a data race.
-/

namespace Verif

open Race

/-- The mutex that stands for a member (`SvLoc`): the registries, the cancellation of requests, the tasks of the peer, the window of the log messages, the task store. -/
def svMutex : SvLoc → Option SvMutex
  | .toolHandlers | .toolMetadata | .resourceHandlers | .resourceMetadata | .resourceUris | .promptHandlers | .promptMetadata | .resourceTemplates => some .registry
  | .cancelMap | .stopSources => some .cancel
  | .outboundTaskKinds => some .outbound
  | .logWindowStart | .logWindowCount => some .logRate
  | .futures => some .group
  | .records | .order | .nextId | .statusCallback => some .store
  | _ => none

/-- The members without a mutex that only settings and `Start` write. -/
def svSettled : SvLoc → Bool
  | .transport | .capabilities | .serverInfo | .errorCallback | .taskStatusHandler | .samplingHandler | .completionHandler | .validationMode => true
  | _ => false

theorem svProg_locked {x : SvLoc} {m : SvMutex} (h : svMutex x = some m) (k : SvFn) : (svProg true k).locked x m false = true := by
  cases x <;> cases h <;> cases k <;> decide +kernel

theorem svSetup_locked {x : SvLoc} {m : SvMutex} (h : svMutex x = some m) : ∀ c ∈ svSetup, c.locked x m false = true := by
  cases x <;> cases h <;> decide +kernel

/-- Whatever functions are called, from however many threads, while requests, notifications and errors come in: there is no data race on the registries of tools, resources, templates and
prompts, on what is kept to cancel requests, on the kinds of the tasks at the peer, on the window of the log messages and in the task store. Missing from the claim: the other members, see
`C121_settings_partial` and the counterexamples. -/
theorem C121_registries_partial {x : SvLoc} {m : SvMutex} (h : svMutex x = some m) (sy : Bool) (main : List SvFn) (ops : List Op) :
    ¬ Racy sy ((Sys.init (svSetup ++ main.map .call)).run (svProg true) ops).trace x :=
  locked_use (svProg true) svSetup main (svProg_locked h) (svSetup_locked h) ops

theorem svProg_spares {x : SvLoc} (h : svSettled x = true) (k : SvFn) : (svProg false k).spares x = true := by
  cases x <;> cases h <;> cases k <;> decide +kernel

/-- A program that makes its settings and calls `Start`, from one thread, before anything else, and then calls what it likes from as many threads as it likes: there is no data race on the settings,
the handlers and the transport. Missing from the claim: settings made later, the keepalive (see the counterexamples), and `clientCapabilities` and `subscribedUris`, which the peer writes. -/
theorem C121_settings_partial {x : SvLoc} (h : svSettled x = true) (sy : Bool) (ops : List Op) : ¬ Racy sy ((Sys.init (svSetup ++ svUse)).run (svProg false) ops).trace x := by
  refine early_sound (svProg false) svSetup svUse (svProg_spares h) ?_ ?_ ops
  · decide +kernel
  · cases x <;> cases h <;> decide +kernel

/-! ### Executions -/

/-- A server is made and started with no settings; the transport has received two requests. Threads: 0 the program, 1 the transport, 2 and 3 the requests, which have registered their tokens. -/
def svTwoRequests : List Op := gos 0 7 ++ [.leave 0] ++ gos 0 10 ++ (gos 1 3 ++ [.leave 1]) ++ gos 1 3 ++ gos 2 8 ++ gos 3 8

/-- Thread 2 unsubscribes up to the test of 1873, thread 3 subscribes. -/
def svSubRace : List Op := svTwoRequests ++ skips 2 12 ++ gos 2 9 ++ skips 3 11 ++ gos 3 7

def svSubTrace : List (Nat × Ev SvLoc SvMutex) := ((Sys.init (svSetup ++ svUse)).run (svProg false) svSubRace).trace

/-- Two requests of the peer suffice: `resources/unsubscribe` looks at the set of subscriptions at 1873 after it has released the mutex, while `resources/subscribe` inserts into it. Counting also
every order that atomics may give. -/
theorem C121_subscriptions_counterexample : ∃ ops, Racy true ((Sys.init (svSetup ++ svUse)).run (svProg false) ops).trace .subscribedUris :=
  ⟨svSubRace, raceAt_racy (i := 22) (j := 25) (by decide +kernel)⟩

/-- Thread 2 serves `initialize` up to the write of the capabilities of the client, thread 3 serves `resources/list`. -/
def svCapRace : List Op := svTwoRequests ++ gos 2 4 ++ skips 3 9 ++ gos 3 7

/-- `initialize` writes the capabilities of the client (1258-1343) under no mutex; `resources/list`, sent without waiting for the answer, reads them at 592. -/
theorem C121_client_capabilities_counterexample : ∃ ops, Racy true ((Sys.init (svSetup ++ svUse)).run (svProg false) ops).trace .clientCapabilities :=
  ⟨svCapRace, raceAt_racy (i := 19) (j := 22) (by decide +kernel)⟩

/-- The program has switched the keepalive on before `Start`; the keepalive thread tests the transport; then the program sets it. -/
def svKeepRace : List Op := gos 0 19 ++ gos 1 3 ++ skips 1 1 ++ gos 1 4 ++ gos 0 2

/-- Switching the keepalive on before `Start` races: its thread reads the pointer to the transport at 3098, which `Start` writes at 1506. -/
theorem C121_keepalive_before_start_counterexample : ∃ ops, Racy true ((Sys.init [svSetKeepalive, svStartWire, svStartRun]).run (svProg false) ops).trace .transport :=
  ⟨svKeepRace, raceAt_racy (i := 11) (j := 12) (by decide +kernel)⟩

/-- After `Start`: thread 2 serves `initialize` up to the reading of the capabilities of the server, and the program switches the keepalive on. -/
def svKeepLateRace : List Op := gos 0 7 ++ [.leave 0] ++ gos 0 10 ++ gos 1 3 ++ gos 2 8 ++ gos 2 8 ++ gos 0 4

/-- Switching the keepalive on after `Start` races as well: it writes the capabilities, which `initialize` is reading. -/
theorem C121_keepalive_after_start_counterexample : ∃ ops, Racy true ((Sys.init (svSetup ++ [svStartRun, svSetKeepalive])).run (svProg false) ops).trace .capabilities :=
  ⟨svKeepLateRace, raceAt_racy (i := 16) (j := 18) (by decide +kernel)⟩

/-- After `Start`: thread 2 serves `completion/complete` up to the reading of the handler, and the program sets one. -/
def svHandlerRace : List Op := gos 0 7 ++ [.leave 0] ++ gos 0 10 ++ gos 1 3 ++ gos 2 8 ++ skips 2 8 ++ gos 2 3 ++ gos 0 2

/-- A handler set after `Start` races with the requests that look for it. -/
theorem C121_late_handler_counterexample : ∃ ops, Racy true ((Sys.init (svSetup ++ [svStartRun, svSetCompletion])).run (svProg false) ops).trace .completionHandler :=
  ⟨svHandlerRace, raceAt_racy (i := 14) (j := 15) (by decide +kernel)⟩

/-! ### The theorems are not empty -/

/-- Two threads write the registry of tools: one tool is registered by the program and one by a thread of its own. -/
def svToolOps : List Op :=
  -- the program: its setting up, a thread of its own, `RegisterTool`
  gos 0 7 ++ [.leave 0] ++ gos 0 5 ++ gos 0 2 ++ skips 0 36 ++ gos 0 4 ++ skips 0 12 ++ gos 0 13 ++
  -- the other thread
  gos 1 1 ++ skips 1 12 ++ gos 1 5

example : let τ := ((Sys.init (svSetup ++ [SvFn.user].map .call)).run (svProg true) svToolOps).trace
    svMutex .toolHandlers = some .registry ∧ τ[9]? = some (0, .write .toolHandlers) ∧ τ[15]? = some (1, .write .toolHandlers) := by decide +kernel

/-- `C121_settings_partial` is about programs whose settings are read by other threads. -/
example : let τ := ((Sys.init (svSetup ++ svUse)).run (svProg false) (gos 0 8 ++ skips 0 2 ++ gos 0 3 ++ [.leave 0, .leave 0, .leave 0] ++ gos 0 10 ++ gos 1 3 ++ gos 2 8 ++ skips 2 8 ++ gos 2 3)).trace
    svSettled .completionHandler = true ∧ (0, Ev.write SvLoc.completionHandler) ∈ τ ∧ (2, Ev.read SvLoc.completionHandler) ∈ τ := by decide +kernel

end Verif
