import Verif.Reach.TaskProps
import Verif.Reach.Case
import Verif.Ask.TaskCase

/-! A concrete execution that meets the hypotheses of the theorems C136 about tasks. -/

namespace Verif.Reach

open Verif.Await Verif.Client Verif.Server Verif.Http Verif.Tasks
open Verif.Whole (fine_sound fineOut fineOut_sound lt_of_get)
open Verif.Ask (plain_of askName tellCli easySelf readyOps)

def taskTrip : List (Op Empty Nat) :=
  opening.map .wire ++
  [.call (.sampleTask askHi none), .go 0, .go 0, .go 0, .go 0, .go 0, .call (.elicitTask askName (some 5)), .go 1, .go 1, .go 1, .go 1, .go 1, .go 1,
   .wire (.world (.advance 1)), .wire (.world (.advance 1)), .wire (.world (.advance 0)), .wire (.world (.advance 0)), .wire (.world (.pump 0 true)), .wire (.world (.pump 0 true)),
   .heed 0 tellCli true true, .heed 1 tellCli true true] ++ (post 1).map .wire ++ (post 2).map .wire ++
  [.deliver 0, .deliver 1,
   .go 0, .go 0, .go 0, .go 0, .go 0, .go 1, .go 1, .go 1, .go 1, .go 1, .own (.worker tellCli 1), .own (.worker tellCli 0),
   .call (.taskResult (lit "task-2")), .go 2, .go 2, .go 2, .go 2, .call (.taskResult (lit "task-1")), .go 3, .go 3, .go 3, .go 3,
   .wire (.world (.advance 2)), .wire (.world (.advance 2)), .wire (.world (.advance 3)), .wire (.world (.advance 3)), .wire (.world (.pump 0 true)), .wire (.world (.pump 0 true)),
   .heed 2 tellCli true true, .heed 3 tellCli true true] ++ (post 3).map .wire ++ (post 4).map .wire ++
  [.deliver 2, .deliver 3,
   .go 2, .go 2, .go 2, .go 2, .go 2, .go 2, .go 3, .go 3, .go 3, .go 3, .go 3, .go 3]

def taskWorld : World Empty Nat := (World.init easySelf readyCli).run demoCfg taskTrip

theorem taskTrip_carried : Carried demoCfg (World.init easySelf readyCli) taskTrip := by
  refine carried_of ?_ (fit_append (fit_append (fit_append (fit_append (fit_append (fit_append (fit_append fit_opening (fit_idle (by decide))) (fit_post 1)) (fit_post 2)) (fit_idle (by decide)))
    (fit_post 3)) (fit_post 4)) (fit_idle (by decide))) (by decide +kernel)
  intro api h
  simp only [taskTrip, opening, post, demoOps, List.take, List.map, List.cons_append, List.nil_append, List.append_assoc, List.mem_cons, List.not_mem_nil, or_false, reduceCtorEq, false_or, Op.call.injEq] at h
  rcases h with rfl | rfl | rfl | rfl <;>
  exact ⟨fun c hc => (nomatch hc), plain_of (by decide +kernel), by decide, fun v hv => by cases hv; exact (fine_sound (lit "error") _ (by decide +kernel)).1⟩

/-- Two tasks under way at the same time whose workers end in the other order: the case of `C136_sampling_task_partial` and `C136_elicitation_task_partial`. -/
example : Carried demoCfg (World.init easySelf ((Cli.init).run readyOps)) taskTrip ∧ OwnIds taskWorld.link.did ∧ OwnSrvIds taskWorld.link.srvDid ∧ (∀ r, ¬ SaidByOthers taskTrip r) ∧
    readyOps.length + taskTrip.length + 2 < 2 ^ 64 ∧
    (match taskWorld.server.calls with
      | [⟨_, .over (.val (.created t _)), _, _, _⟩, ⟨_, .over (.val (.created t' _)), _, _, _⟩, ⟨_, .over (.val (.json v)), _, _, _⟩, ⟨_, .over (.val (.json v')), _, _, _⟩] =>
        t.taskId == lit "task-2" && t'.taskId == lit "task-1" && v.get? (lit "content") == some (.arr [.str (lit "hi")]) && v'.get? (lit "content") == some (.str (lit "name?"))
      | _ => false) = true := by
  refine ⟨taskTrip_carried, ⟨by decide +kernel, by decide +kernel, by decide +kernel⟩, ⟨by decide +kernel, by decide +kernel⟩, ?_, by decide +kernel⟩
  rintro r ⟨f, h⟩
  simp only [taskTrip, opening, post, demoOps, List.take, List.map, List.cons_append, List.nil_append, List.append_assoc, List.mem_cons, List.not_mem_nil, or_false, reduceCtorEq,
    Op.wire.injEq, LinkOp.world.injEq] at h

end Verif.Reach
