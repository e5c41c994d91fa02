import Verif.Share.TaskProps
import Verif.Whole.TaskCase

/-! Concrete executions that meet the hypotheses of the theorems C133. -/

namespace Verif.Share

open Verif.Await Verif.Client Verif.Server Verif.Shm
open Verif.Whole (toolArgs fine fine_sound fineOut fineOut_sound lt_of_get)

def roomy : Cfg := ⟨4096, 4096, 8⟩

/-- No text says a notification: they all begin with an id. -/
theorem noWords_of {e : Endpoint Empty} (h1 : e.asked.length = 0) (h2 : (e.log.all fun t => preId.isPrefixOf t) = true) : NoWords e := by
  refine ⟨fun m q hq => ?_, fun n _ hn => ?_⟩
  · rw [List.length_eq_zero_iff.1 h1] at hq; cases hq
  · have h := List.all_eq_true.1 h2 _ hn
    obtain ⟨rest, h⟩ := List.isPrefixOf_iff_prefix.1 h
    simp [preId, serNotification, lit] at h

/-- The server is the creator, the client the opener. -/
def toolTrip : List (Op Empty Nat) :=
  [.call (.callTool (lit "t") toolArgs), .go 0, .go 0, .file 0, .wire (.deliver true 0), .wire (.take false), .wire (.handle false), .serve 0 echoEnv, .wire (.take true),
   .wire (.handle true), .deliver 0, .go 0, .go 0, .go 0]

/-- What is dispatched with the step `n` survives the wire format. -/
def stepFine (srv : Srv Empty Nat) (ops : List (Op Empty Nat)) (n : Nat) : Bool :=
  match (((World.init roomy plainSelf srv).run roomy true (ops.take n)).net.get false).jobs[0]? with
  | some q => fineOut (dispatch echoEnv ((World.init roomy plainSelf srv).run roomy true (ops.take n)).srv q).1
  | none => true

theorem stepFine_sound {srv : Srv Empty Nat} {ops : List (Op Empty Nat)} {n : Nat} (h : stepFine srv ops n = true) {q : Request Empty} {r : Response Empty}
    (h1 : (((World.init roomy plainSelf srv).run roomy true (ops.take n)).net.get false).jobs[0]? = some q)
    (h2 : (dispatch echoEnv ((World.init roomy plainSelf srv).run roomy true (ops.take n)).srv q).1 = .answer r) : PlainAnswer (.resp r) := by
  unfold stepFine at h
  rw [h1] at h
  exact fineOut_sound h h2

theorem toolTrip_serves {p i : Nat} {env : Env Empty Nat} (hp : p < 14) (h : toolTrip[p]? = some (.serve i env)) : p = 7 ∧ i = 0 ∧ env = echoEnv := by
  match p, hp with
  | 7, _ => cases h; exact ⟨rfl, rfl, rfl⟩
  | 0, _ | 1, _ | 2, _ | 3, _ | 4, _ | 5, _ | 6, _ | 8, _ | 9, _ | 10, _ | 11, _ | 12, _ | 13, _ => cases h

theorem toolTrip_carried : Carried roomy true (World.init roomy plainSelf echoSrv) toolTrip := by
  refine ⟨?_, ?_, ?_, ?_⟩
  · intro api h v hv
    simp only [toolTrip, List.mem_cons, List.not_mem_nil, or_false, reduceCtorEq, false_or] at h
    cases h
    cases hv
    exact (fine_sound (lit "error") _ (by decide +kernel)).1
  · intro op h
    simp only [toolTrip, List.mem_cons, List.not_mem_nil, or_false, reduceCtorEq, false_or] at h
    rcases h with h | h | h | h | h <;> cases h <;> trivial
  · rintro p q env σ r ⟨i, h1, h2, rfl, -, h5⟩
    obtain ⟨rfl, rfl, rfl⟩ := toolTrip_serves (lt_of_get h1) h1
    exact stepFine_sound (srv := echoSrv) (ops := toolTrip) (by decide +kernel) h2 h5
  · intro u h
    simp [toolTrip] at h

/-- A call that is over, with the value of the handler of the server: the case of `C133_result_partial`, `C133_calls_partial`, `C133_tool_partial` and `C133_prompt_partial`. -/
example : Carried roomy true (World.init roomy plainSelf echoSrv) toolTrip ∧ toolTrip.length + 2 < 2 ^ 64 ∧
    let w := (World.init roomy plainSelf echoSrv).run roomy true toolTrip
    NoWords (w.net.get (!true)) ∧ w.srv.runs.length = 1 ∧
    (match w.client.calls with
      | [⟨_, .over (some (.json v)), _, _, _⟩] => match v.get? (lit "structuredContent") with | some s => (s.get? (lit "x")) == some (.int 7) | none => false
      | _ => false) = true :=
  ⟨toolTrip_carried, by decide, noWords_of (by decide +kernel) (by decide +kernel), by decide +kernel⟩

/-! ### A task -/

def memTask : List (Op Empty Nat) :=
  [.call (.callToolTask (lit "t") toolArgs none), .go 0, .go 0, .file 0, .wire (.deliver true 0), .wire (.take false), .wire (.handle false), .serve 0 echoEnv, .wire (.take true),
   .wire (.handle true), .deliver 0, .go 0, .go 0, .go 0, .go 0, .own (.worker echoEnv 0), .call (.taskResult (lit "task-1")), .go 1, .go 1, .file 0, .wire (.deliver true 0),
   .wire (.take false), .wire (.handle false), .serve 0 echoEnv, .wire (.take true), .wire (.handle true), .deliver 1, .go 1, .go 1, .go 1, .go 1, .go 1]

theorem memTask_serves {p i : Nat} {env : Env Empty Nat} (hp : p < 32) (h : memTask[p]? = some (.serve i env)) : (p = 7 ∨ p = 23) ∧ i = 0 ∧ env = echoEnv := by
  match p, hp with
  | 7, _ => cases h; exact ⟨.inl rfl, rfl, rfl⟩
  | 23, _ => cases h; exact ⟨.inr rfl, rfl, rfl⟩
  | 0, _ | 1, _ | 2, _ | 3, _ | 4, _ | 5, _ | 6, _ | 8, _ | 9, _ | 10, _ | 11, _ | 12, _ | 13, _ | 14, _ | 15, _ | 16, _ | 17, _ | 18, _ | 19, _ | 20, _ | 21, _ | 22, _ | 24, _ | 25, _ | 26, _
  | 27, _ | 28, _ | 29, _ | 30, _ | 31, _ => cases h

theorem memTask_carried : Carried roomy true (World.init roomy plainSelf taskSrv) memTask := by
  refine ⟨?_, ?_, ?_, ?_⟩
  · intro api h v hv
    simp only [memTask, List.mem_cons, List.not_mem_nil, or_false, reduceCtorEq, false_or] at h
    rcases h with h | h <;> cases h <;> cases hv <;> exact (fine_sound (lit "error") _ (by decide +kernel)).1
  · intro op h
    simp only [memTask, List.mem_cons, List.not_mem_nil, or_false, reduceCtorEq, false_or] at h
    rcases h with h | h | h | h | h | h | h | h | h | h <;> cases h <;> trivial
  · rintro p q env σ r ⟨i, h1, h2, rfl, -, h5⟩
    obtain ⟨hp, rfl, rfl⟩ := memTask_serves (lt_of_get h1) h1
    rcases hp with rfl | rfl
    · exact stepFine_sound (srv := taskSrv) (ops := memTask) (by decide +kernel) h2 h5
    · exact stepFine_sound (srv := taskSrv) (ops := memTask) (by decide +kernel) h2 h5
  · intro u h
    simp [memTask] at h

/-- A task was created and its outcome fetched: the case of `C133_task_partial`. -/
example : Carried roomy true (World.init roomy plainSelf taskSrv) memTask ∧ taskSetup.length + memTask.length + 2 < 2 ^ 64 ∧
    let w := (World.init roomy plainSelf taskSrv).run roomy true memTask
    NoWords (w.net.get (!true)) ∧
    (match w.client.calls with
      | [⟨_, .over (some (.created t _)), _, _, _⟩, ⟨_, .over (some (.json v)), _, _, _⟩] => t.taskId == lit "task-1" && v.get? (lit "structuredContent") == some toolArgs
      | _ => false) = true :=
  ⟨memTask_carried, by decide, noWords_of (by decide +kernel) (by decide +kernel), by decide +kernel⟩

/-! ### A call that says `error` -/

def errorTrip : List (Op Empty Nat) :=
  [.call (.callTool (lit "t") (.obj [(lit "error", .int 7)])), .go 0, .go 0, .file 0, .wire (.deliver true 0), .wire (.take false), .wire (.handle false), .serve 0 echoEnv, .wire (.closeFlag true),
   .wire (.loopEnd true), .deliver 0, .go 0, .go 0, .go 0]

theorem errorTrip_serves {p i : Nat} {env : Env Empty Nat} (hp : p < 14) (h : errorTrip[p]? = some (.serve i env)) : p = 7 := by
  match p, hp with
  | 7, _ => rfl
  | 0, _ | 1, _ | 2, _ | 3, _ | 4, _ | 5, _ | 6, _ | 8, _ | 9, _ | 10, _ | 11, _ | 12, _ | 13, _ => cases h

/-- It was sent and taken, and ended with the transport: the case of `C133_words_counterexample`. -/
example : Carried roomy true (World.init roomy plainSelf echoSrv) errorTrip ∧ errorTrip.length + 2 < 2 ^ 64 ∧
    ReqSays (lit "error") (Whole.asRequest (question (.callTool (lit "t") (.obj [(lit "error", .int 7)]) : Api Empty))) ∧
    let w := (World.init roomy plainSelf echoSrv).run roomy true errorTrip
    NoWords (w.net.get (!true)) ∧ (w.net.get false).events.length = 1 ∧ w.srv.runs.length = 0 ∧
    (match w.client.calls with
      | [⟨_, .over (some (.json v)), _, _, _⟩] => isErrorObject v
      | _ => false) = true := by
  refine ⟨⟨?_, ?_, ?_, ?_⟩, by decide, ?_, noWords_of (by decide +kernel) (by decide +kernel), by decide +kernel⟩
  · intro api h v hv
    simp only [errorTrip, List.mem_cons, List.not_mem_nil, or_false, reduceCtorEq, false_or] at h
    cases h
    cases hv
    exact (fine_sound (lit "none") _ (by decide +kernel)).1
  · intro op h
    simp only [errorTrip, List.mem_cons, List.not_mem_nil, or_false, reduceCtorEq, false_or] at h
    rcases h with h | h | h | h | h <;> cases h <;> trivial
  · rintro p q env σ r ⟨i, h1, h2, -, -, -⟩
    obtain rfl := errorTrip_serves (lt_of_get h1) h1
    have : (((World.init roomy plainSelf echoSrv).run roomy true (errorTrip.take 7)).net.get false).jobs.length = 0 := by decide +kernel
    have h2 : (((World.init roomy plainSelf echoSrv).run roomy true (errorTrip.take 7)).net.get false).jobs[i]? = some q := h2
    rw [List.length_eq_zero_iff.1 this] at h2
    cases h2
  · intro u h
    simp [errorTrip] at h
  · exact .inr (.inr ⟨_, rfl, by simp [SaysWord, SaysWordFields]⟩)

end Verif.Share
