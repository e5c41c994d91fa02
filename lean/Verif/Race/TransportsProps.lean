import Verif.Race.Confined
import Verif.Race.Transports

/-!
C122: a transport may be used from several threads without a data race.
-/

namespace Verif

open Race

/-! ### In memory -/

/-- The mutex that stands for a member. -/
def imMutexOf : ImLoc → Option ImMutex
  | .messageQueue => some .queue
  | .pendingRequests => some .request
  | _ => none

/-- The members that are written by the constructor, by `CreatePair` and by the setters only. -/
def imSettled : ImLoc → Bool
  | .sessionId | .notificationHandler | .requestHandler | .errorHandler | .peer | .router => true
  | _ => false

/-- In memory: no race on the queue of messages and on the waiting requests, whatever is called when. Missing: the other members. -/
theorem C122_in_memory_queues_partial {x : ImLoc} {m : ImMutex} (h : imMutexOf x = some m) (sy : Bool) (main : List ImFn) (ops : List Op) :
    ¬ Racy sy ((Sys.init (imSetup ++ main.map .call)).run (imProg true) ops).trace x := by
  refine locked_use (m := m) (imProg true) imSetup main (fun k => ?_) ?_ ops
  · cases x <;> cases h <;> cases k <;> decide +kernel
  · cases x <;> cases h <;> decide +kernel

/-- In memory: no race on the handlers, the peer and the rest that is settled before `Start`. -/
theorem C122_in_memory_settings_partial {x : ImLoc} (h : imSettled x = true) (sy : Bool) (ops : List Op) : ¬ Racy sy ((Sys.init (imSetup ++ imUse)).run (imProg false) ops).trace x := by
  refine early_sound (imProg false) imSetup imUse (fun k => ?_) (by decide +kernel) ?_ ops
  · cases x <;> cases h <;> cases k <;> decide +kernel
  · cases x <;> cases h <;> decide +kernel

/-! ### Standard input and output -/

def sdMutexOf : SdLoc → Option SdMutex
  | .pendingRequests | .requestDeadlines => some .request
  | .writeQueue | .queuedBytes => some .write
  | _ => none

def sdSettled : SdLoc → Bool
  | .sessionId | .notificationHandler | .requestHandler | .errorHandler | .router | .framer | .wakeFd | .requestTimeout | .idleReadTimeout | .writeQueueMaxBytes | .writeTimeout
  | .contentMaxLength => true
  | _ => false

/-- Standard input and output: no race on the queue of frames with its size and on the waiting requests with their deadlines, whatever is called when. -/
theorem C122_stdio_queues_partial {x : SdLoc} {m : SdMutex} (h : sdMutexOf x = some m) (sy : Bool) (main : List SdFn) (ops : List Op) :
    ¬ Racy sy ((Sys.init (sdSetup ++ main.map .call)).run (sdProg true) ops).trace x := by
  refine locked_use (m := m) (sdProg true) sdSetup main (fun k => ?_) ?_ ops
  · cases x <;> cases h <;> cases k <;> decide +kernel
  · cases x <;> cases h <;> decide +kernel

/-- Standard input and output: no race on the handlers, the framer and the limits when they are set before `Start`. -/
theorem C122_stdio_settings_partial {x : SdLoc} (h : sdSettled x = true) (sy : Bool) (ops : List Op) : ¬ Racy sy ((Sys.init (sdSetup ++ sdUse)).run (sdProg false) ops).trace x := by
  refine early_sound (sdProg false) sdSetup sdUse (fun k => ?_) (by decide +kernel) ?_ ops
  · cases x <;> cases h <;> cases k <;> decide +kernel
  · cases x <;> cases h <;> decide +kernel

/-- Standard input and output: no race on the time of the last input when `Start` is called once: only the reader has to do with it. -/
theorem C122_stdio_reader_partial (sy : Bool) (ops : List Op) : ¬ Racy sy ((Sys.init (sdSetup ++ sdUse)).run (sdProg false) ops).trace .lastReadTs := by
  refine alone_sound (x := SdLoc.lastReadTs) (k₀ := SdFn.reader) (sdProg false) (sdSetup ++ [.sync .connected]) (sdUse.drop 2) (fun k hk => ?_) (by decide +kernel) (by decide +kernel) ops
  cases k
  · decide +kernel
  · exact absurd rfl hk
  · decide +kernel
  · decide +kernel

/-! ### Shared memory -/

def shMutexOf : ShLoc → Option ShMutex
  | .pendingRequests => some .request
  | _ => none

def shSettled : ShLoc → Bool
  | .opts | .sendMq | .recvMq | .notificationHandler | .requestHandler | .errorHandler | .sessionId | .router => true
  | _ => false

/-- Shared memory: no race on the waiting requests, whatever is called when. -/
theorem C122_shared_memory_requests_partial {x : ShLoc} {m : ShMutex} (h : shMutexOf x = some m) (sy : Bool) (main : List ShFn) (ops : List Op) :
    ¬ Racy sy ((Sys.init (shSetup ++ main.map .call)).run (shProg true) ops).trace x := by
  refine locked_use (m := m) (shProg true) shSetup main (fun k => ?_) ?_ ops
  · cases m <;> cases x <;> cases h <;> cases k <;> decide +kernel
  · cases m <;> cases x <;> cases h <;> decide +kernel

/-- Shared memory: no race on the handlers and the queues when the handlers are set before `Start` and `Start` is called once. -/
theorem C122_shared_memory_settings_partial {x : ShLoc} (h : shSettled x = true) (sy : Bool) (ops : List Op) : ¬ Racy sy ((Sys.init (shSetup ++ shUse)).run (shProg false) ops).trace x := by
  refine early_sound (shProg false) shSetup shUse (fun k => ?_) (by decide +kernel) ?_ ops
  · cases x <;> cases h <;> cases k <;> decide +kernel
  · cases x <;> cases h <;> decide +kernel

/-! ### Races -/

/-- The program has started the transport and the peer has sent a request; the processing thread looks for the handler; the program sets it. -/
def imRace : List Op := gos 0 3 ++ [.leave 0] ++ gos 0 4 ++ gos 0 3 ++ gos 1 3 ++ skips 1 1 ++ gos 1 8 ++ gos 1 3 ++ skips 1 1 ++ gos 1 2 ++ gos 0 1

/-- In memory, a handler that is set after `Start` races with the thread that looks for it. -/
theorem C122_in_memory_late_handler_counterexample :
    ∃ ops, Racy true ((Sys.init (imSetup ++ imStart ++ [imDeliver, .write .requestHandler])).run (imProg false) ops).trace .requestHandler :=
  ⟨imRace, raceAt_racy (i := 16) (j := 17) (by decide +kernel)⟩

/-- The reader has started and has read a message whose handler calls `Close`, before `Start` has stored the thread. -/
def sdRace : List Op := gos 0 5 ++ [.leave 0] ++ gos 0 2 ++ gos 1 6 ++ skips 1 2 ++ gos 1 11 ++ gos 1 10 ++ gos 1 9 ++ gos 0 1

/-- On standard input and output `Start` stores its threads after they have begun to run (668, 876, 928); a handler that calls `Close` at once reads what `Start` is writing. -/
theorem C122_stdio_close_in_handler_counterexample : ∃ ops, Racy true ((Sys.init (sdSetup ++ sdUse)).run (sdProg false) ops).trace .readerThread :=
  ⟨sdRace, raceAt_racy (i := 18) (j := 19) (by decide +kernel)⟩

/-- The reader is decoding with the framer that the program is replacing. -/
def sdFramerRace : List Op := gos 0 5 ++ [.leave 0] ++ gos 0 7 ++ gos 1 6 ++ skips 1 2 ++ gos 1 10 ++ gos 0 6

/-- `SetMaxContentLength` after `Start` replaces the framer (1252) that the reader and the senders use. -/
theorem C122_stdio_framer_counterexample :
    ∃ ops, Racy true ((Sys.init (sdSetup ++ sdStart ++ [.all [.write .contentMaxLength, .read .contentMaxLength, .write .framer]])).run (sdProg false) ops).trace .framer :=
  ⟨sdFramerRace, raceAt_racy (i := 16) (j := 19) (by decide +kernel)⟩

/-- A request is being handled when the program calls `Close`; the processing thread ends; the answer is sent while the program calls `Start` again. -/
def shRace : List Op :=
  gos 0 3 ++ [.leave 0] ++ gos 0 7 ++ gos 1 8 ++ skips 1 2 ++ gos 1 2 ++ [.leave 1] ++ gos 1 6 ++ [.leave 1, .leave 1, .leave 1] ++ gos 1 10 ++
    gos 0 5 ++ [.leave 0] ++ gos 0 10 ++ gos 0 9 ++ gos 2 2 ++ skips 2 1 ++ gos 2 3 ++ gos 0 3

/-- In shared memory, `Start` after `Close` replaces the queue (237, 240) into which a request of the life before still sends its answer (169). -/
theorem C122_shared_memory_restart_counterexample : ∃ ops, Racy true ((Sys.init (shSetup ++ shRun ++ [shClose] ++ shWire)).run (shProg false) ops).trace .sendMq :=
  ⟨shRace, raceAt_racy (i := 34) (j := 35) (by decide +kernel)⟩

/-! ### The theorems are not empty -/

/-- In memory: the peer puts a message into the queue and the processing thread takes it; a handler that was set is read by that thread. -/
example : let τ := ((Sys.init (imSetup ++ imStart ++ [imDeliver])).run (imProg false) (gos 0 3 ++ gos 0 8 ++ [.leave 0] ++ gos 0 7 ++ imRace.drop 11)).trace
    imMutexOf .messageQueue = some .queue ∧ imSettled .requestHandler = true ∧ (0, Ev.write ImLoc.messageQueue) ∈ τ ∧ (1, Ev.write ImLoc.messageQueue) ∈ τ ∧
      (0, Ev.write ImLoc.requestHandler) ∈ τ ∧ (1, Ev.read ImLoc.requestHandler) ∈ τ := by decide +kernel

/-- Standard input and output: the program puts a frame into the queue and the writer takes it; the framer is used by the program and by the reader. -/
def sdExample : List Op :=
  gos 0 5 ++ [.leave 0] ++ gos 0 7 ++ gos 0 2 ++ skips 0 3 ++ gos 0 6 ++ gos 0 6 ++ skips 0 2 ++ gos 0 20 ++ gos 2 6 ++ skips 2 1 ++ gos 2 7 ++ gos 1 6 ++ skips 1 2 ++ gos 1 10

example : let τ := ((Sys.init (sdSetup ++ sdUse)).run (sdProg false) sdExample).trace
    sdMutexOf .writeQueue = some .write ∧ sdSettled .framer = true ∧ (0, Ev.write SdLoc.writeQueue) ∈ τ ∧ (2, Ev.write SdLoc.writeQueue) ∈ τ ∧
      (0, Ev.write SdLoc.framer) ∈ τ ∧ (0, Ev.read SdLoc.framer) ∈ τ ∧ (1, Ev.read SdLoc.framer) ∈ τ ∧ (1, Ev.write SdLoc.lastReadTs) ∈ τ := by decide +kernel

/-- Shared memory: the requests are failed by the program and by the processing thread; the queue is used by the program and by the thread of a request. -/
example : let τ := ((Sys.init (shSetup ++ shRun ++ [shClose] ++ shWire)).run (shProg false) shRace).trace
    shMutexOf .pendingRequests = some .request ∧ shSettled .sendMq = true ∧ (0, Ev.write ShLoc.pendingRequests) ∈ τ ∧ (1, Ev.write ShLoc.pendingRequests) ∈ τ ∧
      (0, Ev.write ShLoc.sendMq) ∈ τ ∧ (2, Ev.read ShLoc.sendMq) ∈ τ := by decide +kernel

end Verif
