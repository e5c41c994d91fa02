import Verif.Pipe.HandlerProps
import Verif.Pipe.SettleProps
import Verif.Whole.Case
import Verif.Ask.Case

/-! Concrete executions that meet the hypotheses of the theorems C135. -/

namespace Verif.Pipe

open Verif.Await Verif.Client Verif.Server Verif.Duplex Verif.Stdio
open Verif.Whole (fine fine_sound fineOut fineOut_sound lt_of_get quietCfg own_empty)
open Verif.Ask (asksFirst plain_of askName pick)

/-! ### Three calls under way at the same time -/

/-- A frame leaves one side. -/
def out (y : Bool) : List (Op Empty Nat) := [.wire y (.push 0), .wire y .dequeue, .wire y (.write 4000), .wire y .finish]

/-- The answer of a handler leaves the client. -/
def back : List (Op Empty Nat) := [.wire true .dequeue, .wire true (.write 4000), .wire true .finish]

def threeTrip : List (Op Empty Nat) :=
  [.call (.elicit askName), .go 0, .go 0, .go 0, .go 0, .go 0, .go 0, .call (.sample askHi (some (lit "7"))), .go 1, .go 1, .go 1, .go 1, .call .roots, .go 2, .go 2, .go 2, .go 2,
   .wire false (.file 1 0), .wire false (.file 0 0), .wire false (.file 2 0)] ++ out false ++ out false ++ out false ++
  [.wire true (.read 4000), .wire true .decode, .serve echoCli, .wire true .decode, .serve echoCli, .wire true .decode, .serve echoCli] ++ back ++ back ++ back ++
  [.wire false (.read 4000), .wire false .decode, .wire false .decode, .wire false .decode, .deliver 0, .deliver 1, .deliver 2,
   .go 0, .go 0, .go 0, .go 0, .go 1, .go 1, .go 1, .go 1, .go 2, .go 2, .go 2, .go 2]

def threeWorld : World Empty Nat := (World.init startedSelf readyCli).run quietCfg threeTrip

/-- What is handled in an execution is carried by the wire. -/
def fineAt (w : World Empty Nat) (ops : List (Op Empty Nat)) (p : Nat) : Bool :=
  match ops[p]? with
  | some (.serve env) =>
    match (w.run quietCfg (ops.take p)).pair.b.job with | some j => fineOut (onRequest env (w.run quietCfg (ops.take p)).cli j.req).1 | none => true
  | _ => true

/-- The steps of the transports give them nothing new. -/
def passes : Op Empty Nat → Bool
  | .wire _ (.check _) => false
  | .wire _ (.note _) => false
  | .change _ => false
  | _ => true

theorem passes_wire {ops : List (Op Empty Nat)} (h : ops.all passes = true) (y : Bool) (op : EndOp Empty) (hm : Op.wire y op ∈ ops) : PlainStep (y, op) := by
  have := List.all_eq_true.1 h _ hm
  cases op <;> first | trivial | cases this

theorem passes_change {ops : List (Op Empty Nat)} (h : ops.all passes = true) (u : SSelf Empty → SSelf Empty) (hm : Op.change u ∈ ops) : False := by
  cases List.all_eq_true.1 h _ hm

theorem carried_of {s0 : SSelf Empty} {ops : List (Op Empty Nat)} (hcall : ∀ api, Op.call api ∈ ops → InMemory.PlainReq (Ask.asRequest (enquiry api))) (h : ops.all passes = true)
    (hf : ∀ p < ops.length, fineAt (World.init s0 readyCli) ops p = true) : Carried quietCfg (World.init s0 readyCli) ops := by
  refine ⟨echo_plain, hcall, fun y op hm => passes_wire h y op hm, ?_, fun u hm => (passes_change h u hm).elim⟩
  rintro p q env σ r ⟨h1, ⟨j, hj, rfl⟩, h3, -, h5⟩
  have key := hf p (lt_of_get h1)
  unfold fineAt at key
  rw [h1] at key
  dsimp only at key
  rw [hj, h3] at key
  exact fineOut_sound key h5

theorem threeTrip_carried : Carried quietCfg (World.init startedSelf readyCli) threeTrip := by
  refine carried_of ?_ (by decide +kernel) (by decide +kernel)
  intro api h
  simp only [threeTrip, out, back, List.cons_append, List.nil_append, List.append_assoc, List.mem_cons, List.not_mem_nil, or_false, reduceCtorEq, false_or, Op.call.injEq] at h
  rcases h with rfl | rfl | rfl
  · exact ⟨fun c hc => (nomatch hc), plain_of (by decide +kernel), by decide, fun v hv => by cases hv; exact (fine_sound (lit "error") _ (by decide +kernel)).1⟩
  · exact ⟨plain_of (by decide +kernel), plain_of (by decide +kernel), by decide, fun v hv => by cases hv; exact (fine_sound (lit "error") _ (by decide +kernel)).1⟩
  · exact ⟨fun c hc => (nomatch hc), plain_of (by decide +kernel), by decide, fun v hv => (nomatch hv)⟩

theorem own_three : OwnTexts [RpcId.str [], .str (lit "7"), .str []] := by
  refine ⟨?_, ?_, by decide⟩
  · have key : ∀ (i : Nat) (a : RpcId), [RpcId.str [], .str (lit "7"), .str []][i]? = some a → idText a ≠ [] → i = 1 := by
      intro i a h hne
      match i, h with
      | 0, h => cases h; exact absurd rfl hne
      | 1, _ => rfl
      | 2, h => cases h; exact absurd rfl hne
    intro i j a b ha hb he hne
    rw [key i a ha hne, key j b hb (he ▸ hne)]
  · intro i hi c h
    simp only [List.mem_cons, List.not_mem_nil, or_false] at hi
    rcases hi with rfl | rfl | rfl
    · cases h
    · have h' : (lit "7").head? = (lit "req-").head? := (congrArg List.head? h).trans (by rfl)
      exact absurd h' (by decide)
    · cases h

/-- Three calls that are over, each with the value of its handler: the case of `C135_result_partial`, `C135_handled_partial`, `C135_sampling_partial`, `C135_roots_partial` and
`C135_elicitation_partial`. The root whose uri is empty is not given. -/
example : Carried quietCfg (World.init startedSelf readyCli) threeTrip ∧ OwnTexts (threeWorld.pair.a.given.map (·.id)) ∧
    (match threeWorld.server.calls with
      | [⟨_, .over (.val (.elicited ⟨a, some (.str m), none⟩)), _, _, _⟩, ⟨_, .over (.val (.json (.arr [.str t]))), _, _, _⟩, ⟨_, .over (.val (.roots [⟨u, some n, none⟩])), _, _, _⟩] =>
        a == lit "accept" && m == lit "name?" && t == lit "hi" && u == lit "file:///a" && n == lit "a"
      | _ => false) = true := by
  have h : threeWorld.pair.a.given.map (·.id) = [RpcId.str [], .str (lit "7"), .str []] := by decide +kernel
  exact ⟨threeTrip_carried, by rw [h]; exact own_three, by decide +kernel⟩

/-! ### A ping -/

def pingTrip : List (Op Empty Nat) :=
  [.call .ping, .go 0, .go 0, .go 0, .wire false (.file 0 0)] ++ out false ++ [.wire true (.read 4000), .wire true .decode, .serve echoCli] ++ back ++
  [.wire false (.read 4000), .wire false .decode, .deliver 0, .go 0, .go 0, .go 0, .go 0]

def pingWorld : World Empty Nat := (World.init startedSelf readyCli).run quietCfg pingTrip

theorem pingTrip_carried : Carried quietCfg (World.init startedSelf readyCli) pingTrip := by
  refine carried_of ?_ (by decide +kernel) (by decide +kernel)
  intro api h
  simp only [pingTrip, out, back, List.cons_append, List.nil_append, List.append_assoc, List.mem_cons, List.not_mem_nil, or_false, reduceCtorEq, false_or, Op.call.injEq] at h
  subst h
  exact ⟨fun c hc => (nomatch hc), plain_of (by decide +kernel), by decide, fun v hv => (nomatch hv)⟩

/-- A ping that is over: the case of `C135_ping_partial`. -/
example : Carried quietCfg (World.init startedSelf readyCli) pingTrip ∧ OwnTexts (pingWorld.pair.a.given.map (·.id)) ∧
    (match pingWorld.server.calls with
      | [⟨_, .over (.val .nothing), _, _, _⟩] => true
      | _ => false) = true := by
  have h : pingWorld.pair.a.given.map (·.id) = [.str []] := by decide +kernel
  exact ⟨pingTrip_carried, by rw [h]; exact own_empty, by decide +kernel⟩

end Verif.Pipe
