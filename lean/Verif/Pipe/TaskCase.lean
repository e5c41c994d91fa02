import Verif.Pipe.TaskProps
import Verif.Pipe.Case
import Verif.Ask.TaskCase

/-! A concrete execution that meets the hypotheses of the theorems C135 about tasks. -/

namespace Verif.Pipe

open Verif.Await Verif.Client Verif.Server Verif.Duplex Verif.Stdio Verif.Tasks
open Verif.Whole (fine_sound fineOut fineOut_sound lt_of_get quietCfg)
open Verif.Ask (plain_of askName tellCli easySelf readyOps)

def taskTrip : List (Op Empty Nat) :=
  [.call (.sampleTask askHi none), .go 0, .go 0, .go 0, .go 0, .go 0, .call (.elicitTask askName (some 5)), .go 1, .go 1, .go 1, .go 1, .go 1, .go 1,
   .wire false (.file 1 0), .wire false (.file 0 0)] ++ out false ++ out false ++
  [.wire true (.read 4000), .wire true .decode, .serve tellCli, .wire true .decode, .serve tellCli] ++ back ++ back ++
  [.wire false (.read 4000), .wire false .decode, .wire false .decode, .deliver 0, .deliver 1,
   .go 0, .go 0, .go 0, .go 0, .go 0, .go 1, .go 1, .go 1, .go 1, .go 1, .own (.worker tellCli 1), .own (.worker tellCli 0),
   .call (.taskResult (lit "task-2")), .go 2, .go 2, .go 2, .go 2, .call (.taskResult (lit "task-1")), .go 3, .go 3, .go 3, .go 3,
   .wire false (.file 2 0), .wire false (.file 3 0)] ++ out false ++ out false ++
  [.wire true (.read 4000), .wire true .decode, .serve tellCli, .wire true .decode, .serve tellCli] ++ back ++ back ++
  [.wire false (.read 4000), .wire false .decode, .wire false .decode, .deliver 2, .deliver 3,
   .go 2, .go 2, .go 2, .go 2, .go 2, .go 2, .go 3, .go 3, .go 3, .go 3, .go 3, .go 3]

def taskWorld : World Empty Nat := (World.init easySelf readyCli).run quietCfg taskTrip

theorem taskTrip_carried : Carried quietCfg (World.init easySelf readyCli) taskTrip := by
  refine carried_of ?_ (by decide +kernel) (by decide +kernel)
  intro api h
  simp only [taskTrip, out, back, List.cons_append, List.nil_append, List.append_assoc, List.mem_cons, List.not_mem_nil, or_false, reduceCtorEq, false_or, Op.call.injEq] at h
  rcases h with rfl | rfl | rfl | rfl <;>
  exact ⟨fun c hc => (nomatch hc), plain_of (by decide +kernel), by decide, fun v hv => by cases hv; exact (fine_sound (lit "error") _ (by decide +kernel)).1⟩

/-- Requests without ids get texts of their own. -/
theorem own_blank : OwnTexts [RpcId.str [], .str [], .str [], .str []] := by
  have key : ∀ a ∈ [RpcId.str [], .str [], .str [], .str []], idText a = [] := by decide
  refine ⟨fun i j a b ha hb he hne => absurd (key a (List.mem_of_getElem? ha)) hne, fun i hi c h => ?_, by decide⟩
  rw [key i hi] at h
  cases h

/-- Two tasks under way at the same time whose workers end in the other order: the case of `C135_sampling_task_partial` and `C135_elicitation_task_partial`. -/
example : Carried quietCfg (World.init easySelf ((Cli.init).run readyOps)) taskTrip ∧ OwnTexts (taskWorld.pair.a.given.map (·.id)) ∧
    readyOps.length + taskTrip.length + 2 < 2 ^ 64 ∧
    (match taskWorld.server.calls with
      | [⟨_, .over (.val (.created t _)), _, _, _⟩, ⟨_, .over (.val (.created t' _)), _, _, _⟩, ⟨_, .over (.val (.json v)), _, _, _⟩, ⟨_, .over (.val (.json v')), _, _, _⟩] =>
        t.taskId == lit "task-2" && t'.taskId == lit "task-1" && v.get? (lit "content") == some (.arr [.str (lit "hi")]) && v'.get? (lit "content") == some (.str (lit "name?"))
      | _ => false) = true := by
  have h : taskWorld.pair.a.given.map (·.id) = [RpcId.str [], .str [], .str [], .str []] := by decide +kernel
  exact ⟨taskTrip_carried, by rw [h]; exact own_blank, by decide +kernel⟩

end Verif.Pipe
