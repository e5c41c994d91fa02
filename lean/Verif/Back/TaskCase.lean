import Verif.Back.TaskProps
import Verif.Back.Case
import Verif.Ask.TaskCase

/-! A concrete execution that meets the hypotheses of the theorems C134 about tasks. -/

namespace Verif.Back

open Verif.Await Verif.Client Verif.Server Verif.Shm Verif.Tasks
open Verif.Whole (fine_sound fineOut fineOut_sound lt_of_get)
open Verif.Ask (asksFirst plain_of askName tellCli easySelf readyOps)
open Verif.Share (roomy noWords_of)

def taskTrip : List (Op Empty Nat) :=
  [.call (.sampleTask askHi none), .go 0, .go 0, .go 0, .go 0, .go 0, .call (.elicitTask askName (some 5)), .go 1, .go 1, .go 1, .go 1, .go 1, .go 1,
   .file 0, .file 0, .wire (.deliver false 1), .wire (.deliver false 0), .wire (.take true), .wire (.handle true), .wire (.take true), .wire (.handle true), .serve 0 tellCli, .serve 0 tellCli,
   .wire (.take false), .wire (.handle false), .wire (.take false), .wire (.handle false), .deliver 0, .deliver 1,
   .go 0, .go 0, .go 0, .go 0, .go 0, .go 1, .go 1, .go 1, .go 1, .go 1, .own (.worker tellCli 1), .own (.worker tellCli 0),
   .call (.taskResult (lit "task-2")), .go 2, .go 2, .go 2, .go 2, .call (.taskResult (lit "task-1")), .go 3, .go 3, .go 3, .go 3,
   .file 0, .file 0, .wire (.deliver false 0), .wire (.deliver false 0), .wire (.take true), .wire (.handle true), .wire (.take true), .wire (.handle true), .serve 0 tellCli, .serve 0 tellCli,
   .wire (.take false), .wire (.handle false), .wire (.take false), .wire (.handle false), .deliver 2, .deliver 3,
   .go 2, .go 2, .go 2, .go 2, .go 2, .go 2, .go 3, .go 3, .go 3, .go 3, .go 3, .go 3]

def taskWorld : World Empty Nat := (World.init roomy easySelf readyCli).run roomy false taskTrip

theorem taskTrip_carried : Carried roomy false (World.init roomy easySelf readyCli) taskTrip := by
  refine ⟨?_, ?_, ?_, ?_⟩
  · intro api h
    simp only [taskTrip, List.mem_cons, List.not_mem_nil, or_false, reduceCtorEq, false_or, Op.call.injEq] at h
    rcases h with rfl | rfl | rfl | rfl <;>
    exact ⟨fun c hc => (nomatch hc), plain_of (by decide +kernel), by decide, fun v hv => by cases hv; exact (fine_sound (lit "error") _ (by decide +kernel)).1⟩
  · intro op h
    simp only [taskTrip, List.mem_cons, List.not_mem_nil, or_false, reduceCtorEq, false_or, Op.wire.injEq] at h
    rcases h with h | h | h | h | h | h | h | h | h | h | h | h | h | h | h | h | h | h | h | h <;> cases h <;> trivial
  · rintro p q env σ r ⟨i, h1, h2, h3, -, h5⟩
    have hl : p < taskTrip.length := lt_of_get h1
    have key : ∀ p < taskTrip.length, fineAt (World.init roomy easySelf readyCli) taskTrip p = true := by decide +kernel
    have key := key p hl
    unfold fineAt at key
    rw [h1] at key
    dsimp only at key
    rw [show (!false) = true from rfl] at h2
    rw [h2, h3] at key
    exact fineOut_sound key h5
  · intro u h
    simp [taskTrip] at h

theorem taskWorld_ids : taskWorld.server.calls.map (fun x => (asksFirst easySelf x.prog).bind (·.id)) = [none, none, none, none] := by decide +kernel

theorem taskWorld_names : OwnNames taskWorld := by
  have key : ∀ (i : Nat) (x : SCall Empty) (p : SampleReq Empty) (k : Bytes), taskWorld.server.calls[i]? = some x → x.prog ≠ sbody (.sample p (some k)) := by
    intro i x p k hx hp
    have h1 : (taskWorld.server.calls.map (fun x => (asksFirst easySelf x.prog).bind (·.id)))[i]? = some (some k) := by
      rw [List.getElem?_map, hx, Option.map_some, hp]; rfl
    rw [taskWorld_ids] at h1
    have := List.mem_of_getElem? h1
    simp at this
  exact ⟨fun i j x y p p' k _ hx hy hp hp' => absurd hp (key i x p k hx), fun i x p k hx hp => absurd hp (key i x p k hx)⟩

/-- Two tasks under way at the same time whose workers end in the other order: the case of `C134_sampling_task_partial` and `C134_elicitation_task_partial`. -/
example : Carried roomy false (World.init roomy easySelf ((Cli.init).run readyOps)) taskTrip ∧ OwnNames taskWorld ∧ NoWords (taskWorld.net.get (!false)) ∧
    readyOps.length + taskTrip.length + 2 < 2 ^ 64 ∧
    (match taskWorld.server.calls with
      | [⟨_, .over (.val (.created t _)), _, _, _⟩, ⟨_, .over (.val (.created t' _)), _, _, _⟩, ⟨_, .over (.val (.json v)), _, _, _⟩, ⟨_, .over (.val (.json v')), _, _, _⟩] =>
        t.taskId == lit "task-2" && t'.taskId == lit "task-1" && v.get? (lit "content") == some (.arr [.str (lit "hi")]) && v'.get? (lit "content") == some (.str (lit "name?"))
      | _ => false) = true :=
  ⟨taskTrip_carried, taskWorld_names, noWords_of (by decide +kernel) (by decide +kernel), by decide +kernel⟩

end Verif.Back
