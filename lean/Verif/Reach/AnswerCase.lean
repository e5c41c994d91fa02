import Verif.Reach.AnswerProps
import Verif.Reach.Case

/-! A concrete execution that meets the hypotheses of `C136_answered_partial`: the queue is not empty. -/

namespace Verif.Reach

open Verif.Await Verif.Client Verif.Server Verif.Http
open Verif.Whole (fineOut fineOut_sound)
open Verif.Ask (plain_of)

/-- A request for the roots is queued when a ping is about to be sent. -/
def waitTrip : List (Op Empty Nat) :=
  opening.map .wire ++ [.call .roots, .go 0, .go 0, .go 0, .go 0, .wire (.world (.advance 0)), .wire (.world (.advance 0)), .call .ping, .go 1, .go 1]

def waitWorld : World Empty Nat := (World.init startedSelf readyCli).run demoCfg waitTrip

theorem waitTrip_carried : Carried demoCfg (World.init startedSelf readyCli) waitTrip := by
  refine carried_of ?_ (fit_append fit_opening (fit_idle (by decide))) (by decide +kernel)
  intro api h
  simp only [waitTrip, opening, demoOps, List.take, List.map, List.cons_append, List.nil_append, List.append_assoc, List.mem_cons, List.not_mem_nil, or_false, reduceCtorEq,
    false_or, Op.call.injEq] at h
  rcases h with rfl | rfl <;> exact ⟨fun c hc => (nomatch hc), plain_of (by decide +kernel), by decide, fun v hv => (nomatch hv)⟩

theorem ping_said (env : CliEnv Empty Nat) (s : Cli Empty Nat) {q : Request Empty} (hq : q.method = lit "ping") : (onRequest env s q).1 = .answer ⟨q.id, some (.obj []), none⟩ := by
  obtain ⟨id, m, ps⟩ := q
  cases hq
  rfl

example : ∃ y q, y.queue.length = 1 ∧ OwnIds waitWorld.link.did ∧ OwnSrvIds waitWorld.link.srvDid ∧ Joined demoCfg waitWorld 0 0 y ∧
    Verif.Ask.asking waitWorld.server 1 = some q ∧ waitWorld.server.ub = false ∧ waitWorld.server.alive = true ∧
    (∀ body, ∃ tok, AtEndpoint demoCfg.loopback demoCfg.server demoCfg.auth 0 (demoCfg.posted ⟨false, demoCfg.client.endpointPath, waitWorld.link.ht.session, body⟩ []) tok) ∧
    ∀ id, (onRequest echoCli waitWorld.cli ⟨id, q.method, q.params⟩).1 = .answer ⟨id, some (.obj []), none⟩ ∧ PlainAnswer (.resp (⟨id, some (.obj []), none⟩ : Response Empty)) := by
  have hy : (waitWorld.link.hs.objs[0]?).isSome = true := by decide +kernel
  obtain ⟨y, hy⟩ := Option.isSome_iff_exists.1 hy
  have hq : (Verif.Ask.asking waitWorld.server 1).isSome = true := by decide +kernel
  obtain ⟨q, hq⟩ := Option.isSome_iff_exists.1 hq
  have hm : (Verif.Ask.asking waitWorld.server 1).map (·.method) = some (lit "ping") := by decide +kernel
  rw [hq] at hm
  have h1 : (waitWorld.link.hs.objs[0]?).map (fun y => (y.queue.length, y.closed, y.version)) = some (1, false, lit "2025-11-25") := by decide +kernel
  rw [hy] at h1
  simp only [Option.map_some, Option.some.injEq, Prod.mk.injEq] at h1 hm
  have hs : waitWorld.link.ht.session = lit "s1" := by decide +kernel
  refine ⟨y, q, h1.1, ⟨by decide +kernel, by decide +kernel, by decide +kernel⟩, ⟨by decide +kernel, by decide +kernel⟩,
    ⟨by decide +kernel, by decide +kernel, by decide +kernel, by decide +kernel, hy, h1.2.1, h1.2.2, by decide +kernel, by decide +kernel, by decide +kernel, by decide +kernel,
      by decide +kernel, by decide, by decide +kernel⟩, hq, by decide +kernel, by decide +kernel, fun body => ⟨none, ?_⟩, fun id => ⟨ping_said _ _ hm, ?_⟩⟩
  · exact ⟨by decide, rfl, ⟨show demoCfg.client.endpointPath ≠ _ from by decide +kernel, show demoCfg.client.endpointPath ≠ _ from by decide +kernel⟩,
      show localHeaders demoCfg.loopback demoCfg.server.address demoCfg.host [] = none from by decide +kernel, .inl ⟨rfl, rfl⟩⟩
  · exact fineOut_sound (o := .answer ⟨id, some (.obj []), none⟩) rfl rfl

end Verif.Reach
