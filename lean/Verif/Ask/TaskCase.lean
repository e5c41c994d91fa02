import Verif.Ask.TaskProps
import Verif.Ask.Case

/-! Concrete executions that meet the hypotheses of the theorems C132. -/

namespace Verif.Ask

open Verif.Await Verif.Client Verif.Server Verif.InMemory Verif.Tasks
open Verif.Whole (fine_sound fineOut fineOut_sound lt_of_get)

/-! ### A client on its own -/

def readyOps : List (CliOp Empty Nat) :=
  [.setRoots (some 0), .setElicit (some 0), .setSampling (some 0), .initialize { Caps.ClientCaps.none_ with tasks := some ⟨true, true, true, true⟩ }]

def sampleCall : Request Empty := ⟨.int 1, lit "sampling/createMessage", some (withTask (sampleParams askHi) none)⟩

/-- A task that ended, one that was cancelled, and one whose handler was taken away: the cases of `C132_origin` and `C132_failure`. -/
example : (match ((Cli.init).run (readyOps ++ [.request echoCli sampleCall, .worker echoCli 0])).tasks.wait (lit "task-1") with
      | .got false (.arr [.str t]) => t == lit "hi" | _ => false) = true ∧
    (match ((Cli.init).run (readyOps ++ [.request echoCli sampleCall, .request echoCli ⟨.int 2, lit "tasks/cancel", some (.obj [(lit "taskId", .str (lit "task-1"))])⟩])).tasks.wait
        (lit "task-1") with
      | .got true v => v == errorText (lit "Cancelled") | _ => false) = true ∧
    (match ((Cli.init).run (readyOps ++ [.request echoCli sampleCall, .setSampling none, .worker echoCli 0])).tasks.wait (lit "task-1") with
      | .got true v => v == errorText (lit "bad_function_call") | _ => false) = true := by
  decide +kernel

/-- The start of a task: the case of `C132_once`. -/
example : BegunAt (readyOps ++ [.request echoCli sampleCall]) 4 (lit "task-1") (.sample (sampleView askHi)) := by
  refine ⟨echoCli, sampleCall, rfl, ⟨rfl, rfl⟩, ⟨_, _, rfl, rfl⟩, ?_, ?_⟩
  · have : (AMap.get (cliAt (readyOps ++ [.request echoCli sampleCall]) 4).tasks.records (lit "task-1")).isNone = true := by decide +kernel
    exact Option.isNone_iff_eq_none.1 this
  · decide +kernel

/-! ### In memory -/

/-- A client whose sampling handler returns an object. -/
def tellCli : CliEnv Empty Nat := { echoCli with sample := fun _ a => .ret (.obj [(lit "model", .str (lit "m")), (lit "content", a.messages)]) }

def easySelf : SSelf Empty := { startedSelf with strict := false }

def taskTrip : List (Op Empty Nat) :=
  [.call (.sampleTask askHi none), .go 0, .go 0, .go 0, .go 0, .go 0, .call (.elicitTask askName (some 5)), .go 1, .go 1, .go 1, .go 1, .go 1, .go 1,
   .wire (.deliver false 1), .wire (.deliver false 0), .wire (.pop true), .wire (.handle true), .wire (.pop true), .wire (.handle true), .serve 0 tellCli, .serve 0 tellCli,
   .wire (.pop false), .wire (.handle false), .wire (.pop false), .wire (.handle false), .deliver 0, .deliver 1,
   .go 0, .go 0, .go 0, .go 0, .go 0, .go 1, .go 1, .go 1, .go 1, .go 1, .own (.worker tellCli 1), .own (.worker tellCli 0),
   .call (.taskResult (lit "task-2")), .go 2, .go 2, .go 2, .go 2, .call (.taskResult (lit "task-1")), .go 3, .go 3, .go 3, .go 3,
   .wire (.deliver false 0), .wire (.deliver false 0), .wire (.pop true), .wire (.handle true), .wire (.pop true), .wire (.handle true), .serve 0 tellCli, .serve 0 tellCli,
   .wire (.pop false), .wire (.handle false), .wire (.pop false), .wire (.handle false), .deliver 2, .deliver 3,
   .go 2, .go 2, .go 2, .go 2, .go 2, .go 2, .go 3, .go 3, .go 3, .go 3, .go 3, .go 3]

def taskWorld : World Empty Nat := (World.init easySelf readyCli).run taskTrip

theorem taskTrip_carried : Carried (World.init easySelf readyCli) taskTrip := by
  refine ⟨?_, ?_, ?_, ?_⟩
  · intro api h
    simp only [taskTrip, List.mem_cons, List.not_mem_nil, or_false, reduceCtorEq, false_or, Op.call.injEq] at h
    rcases h with rfl | rfl | rfl | rfl <;>
    exact ⟨fun c hc => (nomatch hc), plain_of (by decide +kernel), by decide, fun v hv => by cases hv; exact (fine_sound (lit "error") _ (by decide +kernel)).1⟩
  · intro op h
    simp only [taskTrip, List.mem_cons, List.not_mem_nil, or_false, reduceCtorEq, false_or, Op.wire.injEq] at h
    rcases h with h | h | h | h | h | h | h | h | h | h | h | h | h | h | h | h | h | h | h | h <;> cases h <;> trivial
  · rintro p q env σ r ⟨i, h1, h2, h3, -, h5⟩
    have hl : p < taskTrip.length := lt_of_get h1
    have key : ∀ p < taskTrip.length, fineAt (World.init easySelf readyCli) taskTrip p = true := by decide +kernel
    have key := key p hl
    unfold fineAt at key
    rw [h1] at key
    dsimp only at key
    rw [h2, h3] at key
    exact fineOut_sound key h5
  · intro u h
    simp [taskTrip] at h

theorem taskWorld_ids : taskWorld.server.calls.map (fun x => (asksFirst easySelf x.prog).bind (·.id)) = [none, none, none, none] := by decide +kernel

theorem taskWorld_names : OwnNames taskWorld := by
  have key : ∀ (i : Nat) (x : SCall Empty) (p : SampleReq Empty) (k : Bytes), taskWorld.server.calls[i]? = some x → x.prog ≠ sbody (.sample p (some k)) := by
    intro i x p k hx hp
    have h1 : (taskWorld.server.calls.map (fun x => (asksFirst easySelf x.prog).bind (·.id)))[i]? = some (some k) := by
      rw [List.getElem?_map, hx, Option.map_some, hp]; rfl
    rw [taskWorld_ids] at h1
    have := List.mem_of_getElem? h1
    simp at this
  exact ⟨fun i j x y p p' k _ hx hy hp hp' => absurd hp (key i x p k hx), fun i x p k hx hp => absurd hp (key i x p k hx)⟩

/-- Two tasks under way at the same time whose workers end in the other order: the case of `C132_sampling_partial` and `C132_elicitation_partial`. -/
example : Carried (World.init easySelf ((Cli.init).run readyOps)) taskTrip ∧ OwnNames taskWorld ∧ taskWorld.server.cells.length < 2 ^ 32 ∧
    readyOps.length + taskTrip.length + 1 < 2 ^ 64 ∧
    (match taskWorld.server.calls with
      | [⟨_, .over (.val (.created t _)), _, _, _⟩, ⟨_, .over (.val (.created t' _)), _, _, _⟩, ⟨_, .over (.val (.json v)), _, _, _⟩, ⟨_, .over (.val (.json v')), _, _, _⟩] =>
        t.taskId == lit "task-2" && t'.taskId == lit "task-1" && v.get? (lit "content") == some (.arr [.str (lit "hi")]) && v'.get? (lit "content") == some (.str (lit "name?"))
      | _ => false) = true :=
  ⟨taskTrip_carried, taskWorld_names, by decide +kernel⟩

end Verif.Ask
