import Verif.Back.HandlerProps
import Verif.Share.Case
import Verif.Ask.Case

/-! Concrete executions that meet the hypotheses of the theorems C134. -/

namespace Verif.Back

open Verif.Await Verif.Client Verif.Server Verif.Shm
open Verif.Whole (fine fine_sound fineOut fineOut_sound lt_of_get)
open Verif.Ask (asksFirst plain_of askName pick)
open Verif.Share (roomy noWords_of)

/-! ### Three calls under way at the same time; the server is the creator -/

def threeTrip : List (Op Empty Nat) :=
  [.call (.elicit askName), .go 0, .go 0, .go 0, .go 0, .go 0, .go 0, .call (.sample askHi (some (lit "7"))), .go 1, .go 1, .go 1, .go 1, .call .roots, .go 2, .go 2, .go 2, .go 2,
   .file 1, .file 0, .file 0, .wire (.deliver false 2), .wire (.deliver false 0), .wire (.deliver false 0), .wire (.take true), .wire (.handle true), .wire (.take true), .wire (.handle true),
   .wire (.take true), .wire (.handle true), .serve 1 echoCli, .serve 0 echoCli, .serve 0 echoCli, .wire (.take false), .wire (.handle false), .wire (.take false), .wire (.handle false),
   .wire (.take false), .wire (.handle false), .deliver 0, .deliver 1, .deliver 2, .go 0, .go 0, .go 0, .go 0, .go 1, .go 1, .go 1, .go 1, .go 2, .go 2, .go 2, .go 2]

def threeWorld : World Empty Nat := (World.init roomy startedSelf readyCli).run roomy false threeTrip

/-- What is handled in an execution is carried by the wire. -/
def fineAt (w : World Empty Nat) (ops : List (Op Empty Nat)) (p : Nat) : Bool :=
  match ops[p]? with
  | some (.serve i env) =>
    match ((w.run roomy false (ops.take p)).net.get true).jobs[i]? with | some q => fineOut (onRequest env (w.run roomy false (ops.take p)).cli q).1 | none => true
  | _ => true

theorem threeTrip_carried : Carried roomy false (World.init roomy startedSelf readyCli) threeTrip := by
  refine ⟨?_, ?_, ?_, ?_⟩
  · intro api h
    simp only [threeTrip, List.mem_cons, List.not_mem_nil, or_false, reduceCtorEq, false_or, Op.call.injEq] at h
    rcases h with rfl | rfl | rfl
    · exact ⟨fun c hc => (nomatch hc), plain_of (by decide +kernel), by decide, fun v hv => by cases hv; exact (fine_sound (lit "error") _ (by decide +kernel)).1⟩
    · exact ⟨plain_of (by decide +kernel), plain_of (by decide +kernel), by decide, fun v hv => by cases hv; exact (fine_sound (lit "error") _ (by decide +kernel)).1⟩
    · exact ⟨fun c hc => (nomatch hc), plain_of (by decide +kernel), by decide, fun v hv => (nomatch hv)⟩
  · intro op h
    simp only [threeTrip, List.mem_cons, List.not_mem_nil, or_false, reduceCtorEq, false_or, Op.wire.injEq] at h
    rcases h with h | h | h | h | h | h | h | h | h | h | h | h | h | h | h <;> cases h <;> trivial
  · rintro p q env σ r ⟨i, h1, h2, h3, -, h5⟩
    have hl : p < 53 := lt_of_get h1
    have key : ∀ p < 53, fineAt (World.init roomy startedSelf readyCli) threeTrip p = true := by decide +kernel
    have key := key p hl
    unfold fineAt at key
    rw [h1] at key
    dsimp only at key
    rw [show (!false) = true from rfl] at h2
    rw [h2, h3] at key
    exact fineOut_sound key h5
  · intro u h
    simp [threeTrip] at h

theorem threeWorld_ids : threeWorld.server.calls.map (fun z => (asksFirst startedSelf z.prog).bind (·.id)) = [none, some (lit "7"), none] := by decide +kernel

theorem threeWorld_names : OwnNames threeWorld := by
  have key : ∀ (i : Nat) (z : SCall Empty) (p : SampleReq Empty) (k : Bytes), threeWorld.server.calls[i]? = some z → z.prog = sbody (.sample p (some k)) → i = 1 ∧ k = lit "7" := by
    intro i z p k hx hp
    have h1 : (threeWorld.server.calls.map (fun z => (asksFirst startedSelf z.prog).bind (·.id)))[i]? = some (some k) := by
      rw [List.getElem?_map, hx, Option.map_some, hp]; rfl
    rw [threeWorld_ids] at h1
    exact pick i k h1
  refine ⟨fun i j z y p p' k _ hx hy hp hp' => by rw [(key i z p k hx hp).1, (key j y p' k hy hp').1], fun i z p k hx hp => ?_⟩
  rw [(key i z p k hx hp).2]
  decide

/-- Three calls that are over, each with the value of its handler: the case of `C134_result_partial`, `C134_handled_partial`, `C134_sampling_partial`, `C134_roots_partial` and
`C134_elicitation_partial`. The root whose uri is empty is not given. -/
example : Carried roomy false (World.init roomy startedSelf readyCli) threeTrip ∧ threeTrip.length + 2 < 2 ^ 64 ∧ OwnNames threeWorld ∧ NoWords (threeWorld.net.get (!false)) ∧
    (match threeWorld.server.calls with
      | [⟨_, .over (.val (.elicited ⟨a, some (.str m), none⟩)), _, _, _⟩, ⟨_, .over (.val (.json (.arr [.str t]))), _, _, _⟩, ⟨_, .over (.val (.roots [⟨u, some n, none⟩])), _, _, _⟩] =>
        a == lit "accept" && m == lit "name?" && t == lit "hi" && u == lit "file:///a" && n == lit "a"
      | _ => false) = true :=
  ⟨threeTrip_carried, by decide, threeWorld_names, noWords_of (by decide +kernel) (by decide +kernel), by decide +kernel⟩

/-- An id that looks like those of the transport: `OwnNames` does not hold of everything. -/
example : ¬ OwnNames ((World.init roomy startedSelf readyCli).run roomy false [.call (.sample askHi (some (lit "shm-req-1")))]) := by
  intro h
  exact absurd (show (lit "shm-req-").isPrefixOf (lit "shm-req-1") = true by decide)
    (fun hp => h.form 0 ⟨_, _, _, _, _⟩ askHi (lit "shm-req-1") rfl rfl (List.isPrefixOf_iff_prefix.1 hp))

/-! ### A ping -/

def pingTrip : List (Op Empty Nat) :=
  [.call .ping, .go 0, .go 0, .go 0, .file 0, .wire (.deliver false 0), .wire (.take true), .wire (.handle true), .serve 0 echoCli, .wire (.take false), .wire (.handle false), .deliver 0,
   .go 0, .go 0, .go 0, .go 0]

def pingWorld : World Empty Nat := (World.init roomy startedSelf readyCli).run roomy false pingTrip

theorem unnamed {w : World Empty Nat} (h : (w.server.calls.all fun z => ((asksFirst startedSelf z.prog).bind (·.id)).isNone) = true) : OwnNames w := by
  have key : ∀ (i : Nat) (z : SCall Empty) (p : SampleReq Empty) (k : Bytes), w.server.calls[i]? = some z → z.prog = sbody (.sample p (some k)) → False := by
    intro i z p k hx hp
    have := List.all_eq_true.1 h z (List.mem_of_getElem? hx)
    rw [hp] at this
    cases this
  exact ⟨fun i j z y p p' k _ hx hy hp hp' => (key i z p k hx hp).elim, fun i z p k hx hp => (key i z p k hx hp).elim⟩

theorem pingTrip_carried : Carried roomy false (World.init roomy startedSelf readyCli) pingTrip := by
  refine ⟨?_, ?_, ?_, ?_⟩
  · intro api h
    simp only [pingTrip, List.mem_cons, List.not_mem_nil, or_false, reduceCtorEq, false_or, Op.call.injEq] at h
    subst h
    exact ⟨fun c hc => (nomatch hc), plain_of (by decide +kernel), by decide, fun v hv => (nomatch hv)⟩
  · intro op h
    simp only [pingTrip, List.mem_cons, List.not_mem_nil, or_false, reduceCtorEq, false_or, Op.wire.injEq] at h
    rcases h with h | h | h | h | h <;> cases h <;> trivial
  · rintro p q env σ r ⟨i, h1, h2, h3, -, h5⟩
    have hl : p < 16 := lt_of_get h1
    have key : ∀ p < 16, fineAt (World.init roomy startedSelf readyCli) pingTrip p = true := by decide +kernel
    have key := key p hl
    unfold fineAt at key
    rw [h1] at key
    dsimp only at key
    rw [show (!false) = true from rfl] at h2
    rw [h2, h3] at key
    exact fineOut_sound key h5
  · intro u h
    simp [pingTrip] at h

/-- A ping that is over: the case of `C134_ping_partial`. -/
example : Carried roomy false (World.init roomy startedSelf readyCli) pingTrip ∧ pingTrip.length + 2 < 2 ^ 64 ∧ OwnNames pingWorld ∧ NoWords (pingWorld.net.get (!false)) ∧
    (match pingWorld.server.calls with
      | [⟨_, .over (.val .nothing), _, _, _⟩] => true
      | _ => false) = true :=
  ⟨pingTrip_carried, by decide, unnamed (by decide +kernel), noWords_of (by decide +kernel) (by decide +kernel), by decide +kernel⟩

/-! ### A call that says `error` -/

def askError : ElicitReq Empty := ⟨lit "error", .obj [], none, none, none, none, none⟩

def errorTrip : List (Op Empty Nat) :=
  [.call (.elicit askError), .go 0, .go 0, .go 0, .go 0, .go 0, .go 0, .file 0, .wire (.deliver false 0), .wire (.take true), .wire (.handle true), .serve 0 echoCli, .wire (.closeFlag false),
   .wire (.loopEnd false), .deliver 0, .go 0, .go 0, .go 0, .go 0]

theorem errorTrip_serves {p i : Nat} {env : CliEnv Empty Nat} (hp : p < 19) (h : errorTrip[p]? = some (.serve i env)) : p = 11 := by
  match p, hp with
  | 11, _ => rfl
  | 0, _ | 1, _ | 2, _ | 3, _ | 4, _ | 5, _ | 6, _ | 7, _ | 8, _ | 9, _ | 10, _ | 12, _ | 13, _ | 14, _ | 15, _ | 16, _ | 17, _ | 18, _ => cases h

/-- It was sent and taken, and ended with the transport: the case of `C134_words_counterexample`. -/
example : Carried roomy false (World.init roomy startedSelf readyCli) errorTrip ∧ errorTrip.length + 2 < 2 ^ 64 ∧
    (∀ t, ReqSays (lit "error") (⟨.str t, (enquiry (.elicit askError)).method, (enquiry (.elicit askError)).params⟩ : Request Empty)) ∧
    let w := (World.init roomy startedSelf readyCli).run roomy false errorTrip
    OwnNames w ∧ NoWords (w.net.get (!false)) ∧ (w.net.get true).events.length = 1 ∧
    (match w.server.calls with
      | [⟨_, .over (.val (.elicited ⟨[], none, none⟩)), _, _, _⟩] => true
      | _ => false) = true := by
  refine ⟨⟨?_, ?_, ?_, ?_⟩, by decide, ?_, unnamed (by decide +kernel), noWords_of (by decide +kernel) (by decide +kernel), by decide +kernel⟩
  · intro api h
    simp only [errorTrip, List.mem_cons, List.not_mem_nil, or_false, reduceCtorEq, false_or, Op.call.injEq] at h
    subst h
    exact ⟨fun c hc => (nomatch hc), plain_of (by decide +kernel), by decide, fun v hv => by cases hv; exact (fine_sound (lit "none") _ (by decide +kernel)).1⟩
  · intro op h
    simp only [errorTrip, List.mem_cons, List.not_mem_nil, or_false, reduceCtorEq, false_or, Op.wire.injEq] at h
    rcases h with h | h | h | h | h <;> cases h <;> trivial
  · rintro p q env σ r ⟨i, h1, h2, -, -, -⟩
    obtain rfl := errorTrip_serves (lt_of_get h1) h1
    have : (((World.init roomy startedSelf readyCli).run roomy false (errorTrip.take 11)).net.get true).jobs.length = 0 := by decide +kernel
    have h2 : (((World.init roomy startedSelf readyCli).run roomy false (errorTrip.take 11)).net.get true).jobs[i]? = some q := h2
    rw [List.length_eq_zero_iff.1 this] at h2
    cases h2
  · intro u h
    simp [errorTrip] at h
  · exact fun t => .inr (.inr ⟨_, rfl, by simp [askError, elicitParams, SaysWord, SaysWordFields]; exact .inr (.inl (.inl rfl))⟩)

end Verif.Back
