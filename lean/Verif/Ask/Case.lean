import Verif.Ask.SettleProps
import Verif.Ask.HandlerProps
import Verif.Await.ServerKindProps
import Verif.Whole.Case

/-! Concrete executions that meet the hypotheses of the theorems C130. -/

namespace Verif.Ask

open Verif.Await Verif.Client Verif.Server Verif.InMemory
open Verif.Whole (fine fine_sound fineOut fineOut_sound lt_of_get)
open Verif.Near (NOp reserved)

/-- The request a body asks first, when nothing changes. -/
def asksFirst {S Q A R : Type} (s : S) : Body S Q A R → Option Q
  | .ret _ => none
  | .own f k => asksFirst (f s) (k s)
  | .arg k => asksFirst s k
  | .ask q _ => some q

theorem plain_of {s : Bytes} (h : s.all (fun c => c != '"' && c != '\\') = true) : PlainText s := by
  intro c hc
  have := List.all_eq_true.1 h c hc
  simpa using this

/-! ### Three calls under way at the same time -/

def askName : ElicitReq Empty := ⟨lit "name?", .obj [], none, none, none, none, none⟩

def threeTrip : List (Op Empty Nat) :=
  [.call (.elicit askName), .go 0, .go 0, .go 0, .go 0, .go 0, .go 0, .call (.sample askHi (some (lit "7"))), .go 1, .go 1, .go 1, .go 1, .call .roots, .go 2, .go 2, .go 2, .go 2,
   .wire (.deliver false 2), .wire (.deliver false 0), .wire (.deliver false 0), .wire (.pop true), .wire (.handle true), .wire (.pop true), .wire (.handle true), .wire (.pop true),
   .wire (.handle true), .serve 1 echoCli, .serve 0 echoCli, .serve 0 echoCli, .wire (.pop false), .wire (.handle false), .wire (.pop false), .wire (.handle false),
   .wire (.pop false), .wire (.handle false), .deliver 0, .deliver 1, .deliver 2, .go 0, .go 0, .go 0, .go 0, .go 1, .go 1, .go 1, .go 1, .go 2, .go 2, .go 2, .go 2]

def threeWorld : World Empty Nat := (World.init startedSelf readyCli).run threeTrip

/-- What is handled in an execution is carried by the wire. -/
def fineAt (w : World Empty Nat) (ops : List (Op Empty Nat)) (p : Nat) : Bool :=
  match ops[p]? with
  | some (.serve i env) => match (w.run (ops.take p)).net.b.jobs[i]? with | some q => fineOut (onRequest env (w.run (ops.take p)).cli q).1 | none => true
  | _ => true

theorem threeTrip_carried : Carried (World.init startedSelf readyCli) threeTrip := by
  refine ⟨?_, ?_, ?_, ?_⟩
  · intro api h
    simp only [threeTrip, List.mem_cons, List.not_mem_nil, or_false, reduceCtorEq, false_or, Op.call.injEq] at h
    rcases h with rfl | rfl | rfl
    · exact ⟨fun c hc => (nomatch hc), plain_of (by decide +kernel), by decide, fun v hv => by cases hv; exact (fine_sound (lit "error") _ (by decide +kernel)).1⟩
    · exact ⟨plain_of (by decide +kernel), plain_of (by decide +kernel), by decide, fun v hv => by cases hv; exact (fine_sound (lit "error") _ (by decide +kernel)).1⟩
    · exact ⟨fun c hc => (nomatch hc), plain_of (by decide +kernel), by decide, fun v hv => (nomatch hv)⟩
  · intro op h
    simp only [threeTrip, List.mem_cons, List.not_mem_nil, or_false, reduceCtorEq, false_or, Op.wire.injEq] at h
    rcases h with h | h | h | h | h | h | h | h | h | h | h | h | h | h | h <;> cases h <;> trivial
  · rintro p q env σ r ⟨i, h1, h2, h3, -, h5⟩
    have hl : p < 50 := lt_of_get h1
    have key : ∀ p < 50, fineAt (World.init startedSelf readyCli) threeTrip p = true := by decide +kernel
    have key := key p hl
    unfold fineAt at key
    rw [h1] at key
    dsimp only at key
    rw [h2, h3] at key
    exact fineOut_sound key h5
  · intro u h
    simp [threeTrip] at h

theorem threeWorld_ids : threeWorld.server.calls.map (fun x => (asksFirst startedSelf x.prog).bind (·.id)) = [none, some (lit "7"), none] := by decide +kernel

theorem pick (i : Nat) (k : Bytes) (h : [none, some (lit "7"), none][i]? = some (some k)) : i = 1 ∧ k = lit "7" := by
  match i, h with
  | 0, h => cases h
  | 1, h => injection h with h; injection h with h; exact ⟨rfl, h.symm⟩
  | 2, h => cases h
  | n + 3, h => cases h

theorem threeWorld_names : OwnNames threeWorld := by
  have key : ∀ (i : Nat) (x : SCall Empty) (p : SampleReq Empty) (k : Bytes), threeWorld.server.calls[i]? = some x → x.prog = sbody (.sample p (some k)) → i = 1 ∧ k = lit "7" := by
    intro i x p k hx hp
    have h1 : (threeWorld.server.calls.map (fun x => (asksFirst startedSelf x.prog).bind (·.id)))[i]? = some (some k) := by
      rw [List.getElem?_map, hx, Option.map_some, hp]; rfl
    rw [threeWorld_ids] at h1
    exact pick i k h1
  refine ⟨fun i j x y p p' k _ hx hy hp hp' => by rw [(key i x p k hx hp).1, (key j y p' k hy hp').1], fun i x p k hx hp => ?_⟩
  rw [(key i x p k hx hp).2]
  decide

/-- Three calls that are over, each with the value of its handler: the case of `C130_result_partial`, `C130_handled_partial`, `C130_sampling_partial`, `C130_roots_partial` and
`C130_elicitation_partial`. The root whose uri is empty is not given. -/
example : Carried (World.init startedSelf readyCli) threeTrip ∧ OwnNames threeWorld ∧ threeWorld.server.cells.length = 3 ∧
    (match threeWorld.server.calls with
      | [⟨_, .over (.val (.elicited ⟨a, some (.str m), none⟩)), _, _, _⟩, ⟨_, .over (.val (.json (.arr [.str t]))), _, _, _⟩, ⟨_, .over (.val (.roots [⟨u, some n, none⟩])), _, _, _⟩] =>
        a == lit "accept" && m == lit "name?" && t == lit "hi" && u == lit "file:///a" && n == lit "a"
      | _ => false) = true :=
  ⟨threeTrip_carried, threeWorld_names, by decide +kernel⟩

/-- An id that the caller has given twice: `OwnNames` does not hold of everything. -/
example : ¬ OwnNames ((World.init startedSelf readyCli).run [.call (.sample askHi (some (lit "7"))), .call (.sample askHi (some (lit "7")))]) := by
  intro h
  exact absurd (h.once 0 1 ⟨_, _, _, _, _⟩ ⟨_, _, _, _, _⟩ askHi askHi (lit "7") (by decide) rfl rfl rfl rfl) (by decide)

theorem pong (env : CliEnv Empty Nat) (s : Cli Empty Nat) {q : Request Empty} (hq : q.method = lit "ping") :
    (onRequest env s q).1 = .answer ⟨q.id, some (.obj []), none⟩ := by
  obtain ⟨id, m, ps⟩ := q
  cases hq
  rfl

/-! ### An execution without end -/

def pingStart : List (Op Empty Nat) :=
  [.call .ping, .go 0, .go 0, .go 0, .wire (.deliver false 0), .wire (.pop true), .wire (.handle true), .serve 0 echoCli, .wire (.pop false), .wire (.handle false), .deliver 0,
   .go 0, .go 0, .go 0, .go 0]

/-- One turn after the other. -/
def turn : Nat → Op Empty Nat
  | 0 => .wire (.pop false)
  | 1 => .wire (.handle false)
  | 2 => .wire (.pop true)
  | 3 => .wire (.handle true)
  | 4 => .deliver 0
  | _ => .go 0

def pingFor (t : Nat) : Op Empty Nat := if t < 15 then pingStart.getD t (.go 0) else turn ((t - 15) % 6)

def pingAt (t : Nat) : World Empty Nat := states (World.init startedSelf readyCli) pingFor t

/-- Nothing is on its way any more. -/
structure Rest (w : World Empty Nat) : Prop where
  sending : w.net.a.sending = []
  jobs : w.net.b.jobs = []
  queue : w.net.a.queue = [] ∧ w.net.b.queue = []
  current : w.net.a.current = none ∧ w.net.b.current = none
  dead : w.dead = false
  cells : w.server.cells.length = 1
  over : ∃ (x : SCall Empty) (r : SOut Empty), w.server.calls = [x] ∧ x.st = .over r

theorem rest_server {w : World Empty Nat} (h : Rest w) (s : SSys Empty) (h1 : s.cells.length = w.server.cells.length) (h2 : s.calls = w.server.calls) :
    Rest { w with server := s } :=
  ⟨h.sending, h.jobs, h.queue, h.current, h.dead, by rw [← h.cells]; exact h1, by
    obtain ⟨x, r, g1, g2⟩ := h.over
    exact ⟨x, r, by rw [← g1]; exact h2, g2⟩⟩

theorem rest_fill (s : SSys Empty) (n : Nat) (o : Client.Outcome Empty) : (s.step (.fill n o)).cells.length = s.cells.length ∧ (s.step (.fill n o)).calls = s.calls := by
  unfold Sys.step
  split
  · exact ⟨rfl, rfl⟩
  · dsimp only
    split
    · exact ⟨List.length_set, rfl⟩
    · exact ⟨rfl, rfl⟩

theorem rest_turn {w : World Empty Nat} (h : Rest w) (r : Nat) : Rest (w.step (turn r)) := by
  rw [step_alive h.dead]
  have hpa : w.net.a.pop = w.net.a := by unfold Endpoint.pop; rw [h.queue.1, h.current.1]
  have hpb : w.net.b.pop = w.net.b := by unfold Endpoint.pop; rw [h.queue.2, h.current.2]
  have hha : w.net.a.handle = w.net.a := by unfold Endpoint.handle; rw [h.current.1]
  have hhb : w.net.b.handle = w.net.b := by unfold Endpoint.handle; rw [h.current.2]
  have key : ∀ op : NOp Empty, w.net.step op = w.net → reserved op = false → Rest (w.act (.wire op)) := by
    intro op h1 h2
    simp only [World.act, h2, h1]
    exact h
  match r with
  | 0 => exact key _ (by simp [Net.step, Net.upd, hpa]) rfl
  | 1 => exact key _ (by simp [Net.step, Net.upd, hha]) rfl
  | 2 => exact key _ (by simp [Net.step, Net.upd, hpb]) rfl
  | 3 => exact key _ (by simp [Net.step, Net.upd, hhb]) rfl
  | 4 =>
    simp only [turn, World.act, World.deliver]
    split
    · split
      · exact rest_server h _ (rest_fill _ _ _).1 (rest_fill _ _ _).2
      · exact h
    · exact h
  | n + 5 =>
    obtain ⟨x, v, g1, g2⟩ := h.over
    have ha : asking w.server 0 = none := by unfold asking; rw [g1]; simp [g2]
    have hg : w.server.step (.go 0) = w.server := by
      unfold Sys.step
      split
      · rfl
      · dsimp only
        rw [g1]
        simp [Sys.go, g2]
    simp only [turn, World.act, World.go, ha]
    exact rest_server h _ (by rw [hg]) (by rw [hg])

theorem pingAt_end : (pingAt 15).net.a.sending.length = 0 ∧ (pingAt 15).net.b.jobs.length = 0 ∧ ((pingAt 15).net.a.queue = [] ∧ (pingAt 15).net.b.queue = []) ∧
    ((pingAt 15).net.a.current = none ∧ (pingAt 15).net.b.current = none) ∧ (pingAt 15).dead = false ∧ (pingAt 15).server.cells.length = 1 ∧
    (match (pingAt 15).server.calls with | [⟨_, .over _, _, _, _⟩] => true | _ => false) = true := by decide +kernel

theorem pingAt_rest (t : Nat) : Rest (pingAt (15 + t)) := by
  induction t with
  | zero =>
    obtain ⟨h1, h2, h3, h4, h5, h6, h7⟩ := pingAt_end
    refine ⟨List.length_eq_zero_iff.1 h1, List.length_eq_zero_iff.1 h2, h3, h4, h5, h6, ?_⟩
    show ∃ (x : SCall Empty) (r : SOut Empty), (pingAt 15).server.calls = [x] ∧ x.st = .over r
    split at h7
    · rename_i heq; exact ⟨_, _, heq, rfl⟩
    · cases h7
  | succ t ih =>
    show Rest ((pingAt (15 + t)).step (pingFor (15 + t)))
    unfold pingFor
    rw [if_neg (by omega)]
    exact rest_turn ih _

/-- Before that, requests are on their way at these times only. -/
theorem pingAt_way : ∀ t < 15, ((pingAt t).net.a.sending.length = if t = 4 then 1 else 0) ∧ ((pingAt t).net.b.jobs.length = if t = 7 then 1 else 0) ∧
    (pingAt t).dead = false ∧ (pingAt t).server.cells.length ≤ 1 ∧ ((pingAt t).net.b.jobs.all (fun q => q.method == lit "ping")) = true := by decide +kernel

theorem pingAt_alive (t : Nat) : (pingAt t).dead = false ∧ (pingAt t).server.cells.length ≤ 1 ∧ (t ≠ 4 → (pingAt t).net.a.sending = []) ∧ (t ≠ 7 → (pingAt t).net.b.jobs = []) := by
  by_cases h : t < 15
  · obtain ⟨h1, h2, h3, h4, -⟩ := pingAt_way t h
    refine ⟨h3, h4, fun hne => ?_, fun hne => ?_⟩
    · rw [if_neg hne] at h1; exact List.length_eq_zero_iff.1 h1
    · rw [if_neg hne] at h2; exact List.length_eq_zero_iff.1 h2
  · have hr := pingAt_rest (t - 15)
    rw [show 15 + (t - 15) = t by omega] at hr
    exact ⟨hr.dead, Nat.le_of_eq hr.cells, fun _ => hr.sending, fun _ => hr.jobs⟩

theorem pingFor_kind (t : Nat) : pingFor t = .call .ping ∨ pingFor t = .go 0 ∨ pingFor t = .deliver 0 ∨ (t = 7 ∧ pingFor t = .serve 0 echoCli) ∨ pingFor t = .wire (.deliver false 0) ∨
    (∃ y, pingFor t = .wire (.pop y)) ∨ ∃ y, pingFor t = .wire (.handle y) := by
  by_cases h : t < 15
  · match t, h with
    | 0, _ => exact .inl rfl
    | 1, _ | 2, _ | 3, _ | 11, _ | 12, _ | 13, _ | 14, _ => exact .inr (.inl rfl)
    | 10, _ => exact .inr (.inr (.inl rfl))
    | 7, _ => exact .inr (.inr (.inr (.inl ⟨rfl, rfl⟩)))
    | 4, _ => exact .inr (.inr (.inr (.inr (.inl rfl))))
    | 5, _ => exact .inr (.inr (.inr (.inr (.inr (.inl ⟨true, rfl⟩)))))
    | 8, _ => exact .inr (.inr (.inr (.inr (.inr (.inl ⟨false, rfl⟩)))))
    | 6, _ => exact .inr (.inr (.inr (.inr (.inr (.inr ⟨true, rfl⟩)))))
    | 9, _ => exact .inr (.inr (.inr (.inr (.inr (.inr ⟨false, rfl⟩)))))
    | n + 15, h => exact absurd h (by omega)
  · have he : pingFor t = turn ((t - 15) % 6) := by unfold pingFor; rw [if_neg h]
    rw [he]
    generalize (t - 15) % 6 = r
    match r with
    | 0 => exact .inr (.inr (.inr (.inr (.inr (.inl ⟨false, rfl⟩)))))
    | 1 => exact .inr (.inr (.inr (.inr (.inr (.inr ⟨false, rfl⟩)))))
    | 2 => exact .inr (.inr (.inr (.inr (.inr (.inl ⟨true, rfl⟩)))))
    | 3 => exact .inr (.inr (.inr (.inr (.inr (.inr ⟨true, rfl⟩)))))
    | 4 => exact .inr (.inr (.inl rfl))
    | n + 5 => exact .inr (.inl rfl)

theorem pingAt_job {q : Request Empty} (h : q ∈ (pingAt 7).net.b.jobs) : (pingAt 7).net.b.jobs[0]? = some q ∧ q.method = lit "ping" := by
  obtain ⟨-, h2, -, -, h5⟩ := pingAt_way 7 (by decide)
  have hm := List.all_eq_true.1 h5 q h
  rw [if_pos rfl] at h2
  obtain ⟨j, hj⟩ := List.getElem?_of_mem h
  have := lt_of_get hj
  have : j = 0 := by omega
  subst this
  exact ⟨hj, eq_of_beq hm⟩

theorem pingFor_carried (t : Nat) : Carried (World.init startedSelf readyCli) (before pingFor t) := by
  have mem : ∀ op, op ∈ before pingFor t → ∃ u, pingFor u = op := fun op h => by
    obtain ⟨u, -, hu⟩ := List.mem_map.1 h; exact ⟨u, hu⟩
  refine ⟨?_, ?_, ?_, ?_⟩
  · intro api h
    obtain ⟨u, hu⟩ := mem _ h
    rcases pingFor_kind u with h1 | h1 | h1 | ⟨-, h1⟩ | h1 | ⟨y, h1⟩ | ⟨y, h1⟩ <;> rw [hu] at h1 <;> cases h1
    exact ⟨fun c hc => (nomatch hc), plain_of (by decide +kernel), by decide, fun v hv => (nomatch hv)⟩
  · intro op h
    obtain ⟨u, hu⟩ := mem _ h
    rcases pingFor_kind u with h1 | h1 | h1 | ⟨-, h1⟩ | h1 | ⟨y, h1⟩ | ⟨y, h1⟩ <;> rw [hu] at h1 <;> cases h1 <;> trivial
  · rintro p q env σ r ⟨i, h1, h2, -, -, h5⟩
    have hl := lt_of_get h1
    have hl' : p < t := by simpa [before] using hl
    have hp : pingFor p = .serve i env := by
      have : (before pingFor t)[p]? = some (pingFor p) := by simp [before, List.getElem?_range hl']
      rw [this] at h1
      injection h1
    have hm : q.method = lit "ping" := by
      rcases pingFor_kind p with h3 | h3 | h3 | ⟨h3, h4⟩ | h3 | ⟨y, h3⟩ | ⟨y, h3⟩
      case inr.inr.inr.inl =>
        subst h3
        have ht : (before pingFor t).take 7 = before pingFor 7 := by
          simp only [before, ← List.map_take, List.take_range]
          rw [Nat.min_eq_left (by omega)]
        rw [ht, ← states_run] at h2
        exact (pingAt_job (List.mem_of_getElem? h2)).2
      all_goals rw [hp] at h3; cases h3
    rw [pong env σ hm] at h5
    exact fineOut_sound (o := .answer ⟨q.id, some (.obj []), none⟩) rfl h5
  · intro u h
    obtain ⟨v, hv⟩ := mem _ h
    rcases pingFor_kind v with h1 | h1 | h1 | ⟨-, h1⟩ | h1 | ⟨y, h1⟩ | ⟨y, h1⟩ <;> rw [hv] at h1 <;> cases h1

theorem pingFor_turns : Turns (World.init startedSelf readyCli) pingFor 0 0 := by
  have key : ∀ r t, r < 6 → ∃ u, t ≤ u ∧ pingFor u = turn r := by
    intro r t hr
    refine ⟨15 + (6 * t + r), by omega, ?_⟩
    unfold pingFor
    rw [if_neg (by omega), show (15 + (6 * t + r) - 15) % 6 = r by omega]
  refine ⟨fun t e he => ?_, fun y t => ?_, fun y t => ?_, fun t m q _ _ hq => ?_, fun t => key 4 t (by decide), fun t => key 5 t (by decide)⟩
  · by_cases h : t = 4
    · subst h
      have hl : (pingAt 4).net.a.sending.length = 1 := (pingAt_way 4 (by decide)).1
      obtain ⟨j, hj⟩ := List.getElem?_of_mem he
      have h0 : j < (pingAt 4).net.a.sending.length := lt_of_get hj
      have : j = 0 := by omega
      subst this
      exact ⟨4, 0, Nat.le_refl _, rfl, hj⟩
    · have h0 : e ∈ (pingAt t).net.a.sending := he
      rw [(pingAt_alive t).2.2.1 h] at h0
      cases h0
  · cases y
    · exact key 0 t (by decide)
    · exact key 2 t (by decide)
  · cases y
    · exact key 1 t (by decide)
    · exact key 3 t (by decide)
  · by_cases h : t = 7
    · subst h
      obtain ⟨h1, h2⟩ := pingAt_job hq
      exact ⟨7, 0, echoCli, _, Nat.le_refl _, rfl, h1, pong echoCli _ h2⟩
    · have h0 : q ∈ (pingAt t).net.b.jobs := hq
      rw [(pingAt_alive t).2.2.2 h] at h0
      cases h0

/-- The only call made is a ping. -/
theorem pingAt_names (t : Nat) : OwnNames (pingAt t) := by
  have key : ∀ (i : Nat) (x : SCall Empty) (p : SampleReq Empty) (k : Bytes), (pingAt t).server.calls[i]? = some x → x.prog ≠ sbody (.sample p (some k)) := by
    intro i x p k hx hp
    unfold pingAt at hx
    rw [states_run] at hx
    obtain ⟨api, h1, h2⟩ := call_prog startedSelf readyCli _ hx
    obtain ⟨u, -, hu⟩ := List.mem_map.1 h2
    rcases pingFor_kind u with h3 | h3 | h3 | ⟨-, h3⟩ | h3 | ⟨y, h3⟩ | ⟨y, h3⟩ <;> rw [hu] at h3 <;> cases h3
    rw [h1] at hp
    have := congrArg (fun b => (asksFirst startedSelf b).bind (·.id)) hp
    exact absurd this (by show (none : Option Bytes) ≠ some k; simp)
  exact ⟨fun i j x y p p' k _ hx _ hp _ => absurd hp (key i x p k hx), fun i x p k hx hp => absurd hp (key i x p k hx)⟩

theorem pingAt_two : (match (pingAt 4).server.calls with | [⟨_, .check 0 _, _, _, _⟩] => true | _ => false) = true := by decide +kernel

/-- The hypotheses of `C130_settles_partial`, for an execution without end in which a call waits at time 4. -/
example : (∀ t, Carried (World.init startedSelf readyCli) (before pingFor t)) ∧ (∀ t, OwnNames (pingAt t)) ∧ (∀ t, (pingAt t).server.cells.length < 2 ^ 32) ∧ (∀ t op, pingFor t = .wire op → StaysOpen op) ∧
    (∀ t, (pingAt t).dead = false) ∧ Turns (World.init startedSelf readyCli) pingFor 0 0 ∧
    ∃ (x : SCall Empty) (k : Client.Outcome Empty → SBody Empty), (pingAt 4).server.calls[0]? = some x ∧ x.st = .check 0 k := by
  refine ⟨pingFor_carried, pingAt_names, fun t => Nat.lt_of_le_of_lt (pingAt_alive t).2.1 (by decide), fun t op h => ?_, fun t => (pingAt_alive t).1, pingFor_turns, ?_⟩
  · rcases pingFor_kind t with h1 | h1 | h1 | ⟨-, h1⟩ | h1 | ⟨y, h1⟩ | ⟨y, h1⟩ <;> rw [h] at h1 <;> cases h1 <;> trivial
  · have h := pingAt_two
    split at h
    · rename_i heq; exact ⟨_, _, by rw [heq]; rfl, rfl⟩
    · cases h

end Verif.Ask
