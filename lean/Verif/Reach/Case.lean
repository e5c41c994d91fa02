import Verif.Reach.HandlerProps
import Verif.Whole.Case
import Verif.Ask.Case

/-! Concrete executions that meet the hypotheses of the theorems C136. -/

namespace Verif.Reach

open Verif.Await Verif.Client Verif.Server Verif.Http
open Verif.Whole (fine fine_sound fineOut fineOut_sound lt_of_get)
open Verif.Ask (asksFirst plain_of askName pick)

/-- The client opens a session and listens. -/
def opening : List (LinkOp Empty) := (demoOps (lit "2025-11-25")).take 6 ++ [.listen 0 [] demoSays true true []]

/-- The answers leave the client: post `k` is flight `k`. -/
def post (k : Nat) : List (LinkOp Empty) := [.begin k, .serve k 0 [] demoSays true true []]

/-! ### Three calls under way at the same time -/

def threeTrip : List (Op Empty Nat) :=
  opening.map .wire ++
  [.call (.elicit askName), .go 0, .go 0, .go 0, .go 0, .go 0, .go 0, .call (.sample askHi (some (lit "7"))), .go 1, .go 1, .go 1, .go 1, .call .roots, .go 2, .go 2, .go 2, .go 2] ++
  ([.world (.advance 1), .world (.advance 0), .world (.advance 2), .world (.advance 2), .world (.advance 1), .world (.advance 0),
    .world (.pump 0 true), .world (.pump 0 true), .world (.pump 0 true)] : List (LinkOp Empty)).map .wire ++
  [.heed 1 echoCli true true, .heed 0 echoCli true true, .heed 2 echoCli true true] ++
  (post 1 ++ post 2 ++ post 3).map .wire ++
  [.deliver 0, .deliver 1, .deliver 2, .go 0, .go 0, .go 0, .go 0, .go 1, .go 1, .go 1, .go 1, .go 2, .go 2, .go 2, .go 2]

def threeWorld : World Empty Nat := (World.init startedSelf readyCli).run demoCfg threeTrip

/-- What is handled in an execution is carried by the wire. -/
def fineAt (w : World Empty Nat) (ops : List (Op Empty Nat)) (p : Nat) : Bool :=
  match ops[p]? with
  | some (.heed j env n e) =>
    match heard (w.run demoCfg (ops.take p)).link j with
    | some payload => match asked (D := Empty) n e payload with | some q => fineOut (onRequest env (w.run demoCfg (ops.take p)).cli q).1 | none => true
    | none => true
  | _ => true

/-- The steps give the transports nothing but what the wire carries. -/
def Fit : Op Empty Nat → Prop
  | .wire op => PlainLinkOp op
  | .change _ => False
  | _ => True

/-- The steps that give the transports nothing new. -/
def idle : Op Empty Nat → Bool
  | .wire (.world (.advance _)) => true
  | .wire (.world (.pump _ _)) => true
  | .wire (.begin _) => true
  | .wire _ => false
  | .change _ => false
  | _ => true

theorem fit_idle {l : List (Op Empty Nat)} (h : l.all idle = true) : ∀ o ∈ l, Fit o := by
  intro o ho
  have := List.all_eq_true.1 h o ho
  cases o with
  | wire op =>
    cases op with
    | world v => cases v <;> first | trivial | cases this
    | _ => first | trivial | cases this
  | change u => cases this
  | _ => trivial

theorem fit_wires {l : List (LinkOp Empty)} (h : ∀ op ∈ l, PlainLinkOp op) : ∀ o ∈ l.map (Op.wire (H := Nat)), Fit o := by
  intro o ho
  obtain ⟨op, h1, rfl⟩ := List.mem_map.1 ho
  exact h op h1

theorem fit_append {a b : List (Op Empty Nat)} (ha : ∀ o ∈ a, Fit o) (hb : ∀ o ∈ b, Fit o) : ∀ o ∈ a ++ b, Fit o := by
  intro o ho
  rcases List.mem_append.1 ho with h | h
  · exact ha o h
  · exact hb o h

theorem fit_opening : ∀ o ∈ opening.map (Op.wire (H := Nat)), Fit o := by
  refine fit_wires fun op hop => ?_
  rcases List.mem_append.1 hop with h | h
  · exact demo_plain _ op (List.mem_of_mem_take h)
  · cases List.mem_singleton.1 h
    trivial

theorem fit_post (k : Nat) : ∀ o ∈ (post k).map (Op.wire (H := Nat)), Fit o := by
  refine fit_wires fun op hop => ?_
  simp only [post, List.mem_cons, List.not_mem_nil, or_false] at hop
  rcases hop with rfl | rfl
  · trivial
  · exact demoSays_plain

theorem carried_of {s0 : SSelf Empty} {ops : List (Op Empty Nat)} (hcall : ∀ api, Op.call api ∈ ops → InMemory.PlainReq (Ask.asRequest (enquiry api))) (h : ∀ o ∈ ops, Fit o)
    (hf : ∀ p < ops.length, fineAt (World.init s0 readyCli) ops p = true) : Carried demoCfg (World.init s0 readyCli) ops := by
  refine ⟨fun v token m hv => (by cases hv), hcall, fun op hm => h _ hm, ?_, fun u hm => (h _ hm).elim⟩
  rintro p q env σ r ⟨j, n, e, payload, h1, h2, h3, h4, -, h5⟩
  have key := hf p (lt_of_get h1)
  unfold fineAt at key
  rw [h1] at key
  dsimp only at key
  rw [h2] at key
  dsimp only at key
  rw [h3, h4] at key
  exact fineOut_sound key h5

theorem threeTrip_carried : Carried demoCfg (World.init startedSelf readyCli) threeTrip := by
  refine carried_of ?_ ?_ (by decide +kernel)
  · intro api h
    simp only [threeTrip, opening, post, demoOps, List.take, List.map, List.cons_append, List.nil_append, List.append_assoc, List.mem_cons, List.not_mem_nil, or_false, reduceCtorEq,
      false_or, Op.call.injEq] at h
    rcases h with rfl | rfl | rfl
    · exact ⟨fun c hc => (nomatch hc), plain_of (by decide +kernel), by decide, fun v hv => by cases hv; exact (fine_sound (lit "error") _ (by decide +kernel)).1⟩
    · exact ⟨plain_of (by decide +kernel), plain_of (by decide +kernel), by decide, fun v hv => by cases hv; exact (fine_sound (lit "error") _ (by decide +kernel)).1⟩
    · exact ⟨fun c hc => (nomatch hc), plain_of (by decide +kernel), by decide, fun v hv => (nomatch hv)⟩
  · refine fit_append (fit_append (fit_append (fit_append (fit_append fit_opening (fit_idle (by decide))) (fit_idle (by decide))) (fit_idle (by decide))) ?_) (fit_idle (by decide))
    rw [List.map_append, List.map_append]
    exact fit_append (fit_append (fit_post 1) (fit_post 2)) (fit_post 3)

/-- Three calls that are over, each with the value of its handler: the case of `C136_result_partial`, `C136_handled_partial`, `C136_sampling_partial`, `C136_roots_partial` and
`C136_elicitation_partial`. The root whose uri is empty is not given. -/
example : Carried demoCfg (World.init startedSelf readyCli) threeTrip ∧ OwnIds threeWorld.link.did ∧ OwnSrvIds threeWorld.link.srvDid ∧
    (match threeWorld.server.calls with
      | [⟨_, .over (.val (.elicited ⟨a, some (.str m), none⟩)), _, _, _⟩, ⟨_, .over (.val (.json (.arr [.str t]))), _, _, _⟩, ⟨_, .over (.val (.roots [⟨u, some n, none⟩])), _, _, _⟩] =>
        a == lit "accept" && m == lit "name?" && t == lit "hi" && u == lit "file:///a" && n == lit "a"
      | _ => false) = true :=
  ⟨threeTrip_carried, ⟨by decide +kernel, by decide +kernel, by decide +kernel⟩, ⟨by decide +kernel, by decide +kernel⟩, by decide +kernel⟩

/-! ### A ping -/

def pingTrip : List (Op Empty Nat) :=
  opening.map .wire ++
  [.call .ping, .go 0, .go 0, .go 0, .wire (.world (.advance 0)), .wire (.world (.advance 0)), .wire (.world (.pump 0 true)), .heed 0 echoCli true true] ++
  (post 1).map .wire ++ [.deliver 0, .go 0, .go 0, .go 0, .go 0]

def pingWorld : World Empty Nat := (World.init startedSelf readyCli).run demoCfg pingTrip

theorem pingTrip_carried : Carried demoCfg (World.init startedSelf readyCli) pingTrip := by
  refine carried_of ?_ (fit_append (fit_append (fit_append fit_opening (fit_idle (by decide))) (fit_post 1)) (fit_idle (by decide))) (by decide +kernel)
  intro api h
  simp only [pingTrip, opening, post, demoOps, List.take, List.map, List.cons_append, List.nil_append, List.append_assoc, List.mem_cons, List.not_mem_nil, or_false, reduceCtorEq,
    false_or, Op.call.injEq] at h
  subst h
  exact ⟨fun c hc => (nomatch hc), plain_of (by decide +kernel), by decide, fun v hv => (nomatch hv)⟩

/-- A ping that is over: the case of `C136_ping_partial`. -/
example : Carried demoCfg (World.init startedSelf readyCli) pingTrip ∧ OwnIds pingWorld.link.did ∧ OwnSrvIds pingWorld.link.srvDid ∧
    (match pingWorld.server.calls with
      | [⟨_, .over (.val .nothing), _, _, _⟩] => true
      | _ => false) = true :=
  ⟨pingTrip_carried, ⟨by decide +kernel, by decide +kernel, by decide +kernel⟩, ⟨by decide +kernel, by decide +kernel⟩, by decide +kernel⟩

end Verif.Reach
