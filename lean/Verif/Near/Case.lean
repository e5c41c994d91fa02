import Verif.Near.SettleProps
import Verif.Whole.Case

/-! Concrete executions that meet the hypotheses of the theorems C129. -/

namespace Verif.Near

open Verif.Await Verif.Client Verif.Server Verif.InMemory
open Verif.Whole (toolArgs fine fine_sound fineOut fineOut_sound lt_of_get ping_answer)

/-! ### A call of a tool -/

def toolTrip : List (Op Empty Nat) :=
  [.call (.callTool (lit "t") toolArgs), .go 0, .go 0, .wire (.deliver false 0), .wire (.pop true), .wire (.handle true), .serve 0 echoEnv, .wire (.pop false),
   .wire (.handle false), .deliver 0, .go 0, .go 0, .go 0]

theorem toolTrip_carried : Carried (World.init plainSelf echoSrv) toolTrip := by
  refine ⟨?_, ?_, ?_, ?_⟩
  · intro api h v hv
    simp only [toolTrip, List.mem_cons, List.not_mem_nil, or_false, reduceCtorEq, false_or] at h
    cases h
    cases hv
    exact (fine_sound (lit "error") _ (by decide +kernel)).1
  · intro op h
    simp only [toolTrip, List.mem_cons, List.not_mem_nil, or_false, reduceCtorEq, false_or] at h
    rcases h with h | h | h | h | h <;> cases h <;> trivial
  · rintro p q env σ r ⟨i, h1, h2, h3, -, h5⟩
    have hp : p = 6 ∧ i = 0 ∧ env = echoEnv := by
      have hl : p < 13 := lt_of_get h1
      have : ∀ n, n < 13 → toolTrip[n]? = some (.serve i env) → n = 6 ∧ i = 0 ∧ env = echoEnv := by
        intro n hn he
        match n, hn with
        | 6, _ => cases he; exact ⟨rfl, rfl, rfl⟩
        | 0, _ | 1, _ | 2, _ | 3, _ | 4, _ | 5, _ | 7, _ | 8, _ | 9, _ | 10, _ | 11, _ | 12, _ => cases he
      exact this p hl h1
    obtain ⟨rfl, rfl, rfl⟩ := hp
    have key : (match ((World.init plainSelf echoSrv).run (toolTrip.take 6)).net.b.jobs[0]? with
      | some q => fineOut (dispatch echoEnv ((World.init plainSelf echoSrv).run (toolTrip.take 6)).srv q).1
      | none => true) = true := by decide +kernel
    rw [h2, h3] at key
    exact fineOut_sound key h5
  · intro u h
    simp [toolTrip] at h

/-- A call that is over, with the value of the handler of the server: the case of `C129_result_partial`, `C129_calls_partial` and `C129_tool_partial`. -/
example : Carried (World.init plainSelf echoSrv) toolTrip ∧
    let w := (World.init plainSelf echoSrv).run toolTrip
    w.client.cells.length = 1 ∧ w.srv.runs.length = 1 ∧
    (match w.client.calls with
      | [⟨_, .over (some (.json v)), _, _, _⟩] => match v.get? (lit "structuredContent") with | some s => (s.get? (lit "x")) == some (.int 7) | none => false
      | _ => false) = true :=
  ⟨toolTrip_carried, by decide +kernel⟩

/-! ### An execution without end -/

def pingStart : List (Op Empty Nat) :=
  [.call .ping, .go 0, .wire (.deliver false 0), .wire (.pop true), .wire (.handle true), .serve 0 echoEnv, .wire (.pop false), .wire (.handle false), .deliver 0, .go 0, .go 0, .go 0]

/-- One turn after the other. -/
def turn : Nat → Op Empty Nat
  | 0 => .wire (.pop false)
  | 1 => .wire (.handle false)
  | 2 => .wire (.pop true)
  | 3 => .wire (.handle true)
  | 4 => .deliver 0
  | _ => .go 0

def pingFor (t : Nat) : Op Empty Nat := if t < 12 then pingStart.getD t (.go 0) else turn ((t - 12) % 6)

def pingAt (t : Nat) : World Empty Nat := states (World.init plainSelf echoSrv) pingFor t

/-- Nothing is on its way any more. -/
structure Rest (w : World Empty Nat) : Prop where
  sending : w.net.a.sending = []
  jobs : w.net.b.jobs = []
  queue : w.net.a.queue = [] ∧ w.net.b.queue = []
  current : w.net.a.current = none ∧ w.net.b.current = none
  dead : w.dead = false
  cells : w.client.cells.length = 1
  over : ∃ (x : CCall Empty) (r : Option (Val Empty)), w.client.calls = [x] ∧ x.st = .over r

theorem rest_client {w : World Empty Nat} (h : Rest w) (s : CSys Empty) (h1 : s.cells.length = w.client.cells.length) (h2 : s.calls = w.client.calls) :
    Rest { w with client := s } :=
  ⟨h.sending, h.jobs, h.queue, h.current, h.dead, by rw [← h.cells]; exact h1, by
    obtain ⟨x, r, g1, g2⟩ := h.over
    exact ⟨x, r, by rw [← g1]; exact h2, g2⟩⟩

theorem rest_fill (s : CSys Empty) (n : Nat) (o : Client.Outcome Empty) : (s.step (.fill n o)).cells.length = s.cells.length ∧ (s.step (.fill n o)).calls = s.calls := by
  unfold Sys.step
  split
  · exact ⟨rfl, rfl⟩
  · dsimp only
    split
    · exact ⟨List.length_set, rfl⟩
    · exact ⟨rfl, rfl⟩

theorem rest_turn {w : World Empty Nat} (h : Rest w) (r : Nat) : Rest (w.step (turn r)) := by
  rw [step_alive h.dead]
  have hpa : w.net.a.pop = w.net.a := by unfold Endpoint.pop; rw [h.queue.1, h.current.1]
  have hpb : w.net.b.pop = w.net.b := by unfold Endpoint.pop; rw [h.queue.2, h.current.2]
  have hha : w.net.a.handle = w.net.a := by unfold Endpoint.handle; rw [h.current.1]
  have hhb : w.net.b.handle = w.net.b := by unfold Endpoint.handle; rw [h.current.2]
  have key : ∀ op : NOp Empty, w.net.step op = w.net → reserved op = false → Rest (w.act (.wire op)) := by
    intro op h1 h2
    simp only [World.act, h2, h1]
    exact h
  match r with
  | 0 => exact key _ (by simp [Net.step, Net.upd, hpa]) rfl
  | 1 => exact key _ (by simp [Net.step, Net.upd, hha]) rfl
  | 2 => exact key _ (by simp [Net.step, Net.upd, hpb]) rfl
  | 3 => exact key _ (by simp [Net.step, Net.upd, hhb]) rfl
  | 4 =>
    simp only [turn, World.act, World.deliver]
    split
    · split
      · exact rest_client h _ (rest_fill _ _ _).1 (rest_fill _ _ _).2
      · exact h
    · exact h
  | n + 5 =>
    obtain ⟨x, v, g1, g2⟩ := h.over
    have ha : Whole.asking w.client 0 = none := by unfold Whole.asking; rw [g1]; simp [g2]
    have hg : w.client.step (.go 0) = w.client := by
      unfold Sys.step
      split
      · rfl
      · dsimp only
        rw [g1]
        simp [Sys.go, g2]
    simp only [turn, World.act, World.go, ha]
    exact rest_client h _ (by rw [hg]) (by rw [hg])

theorem pingAt_end : (pingAt 12).net.a.sending.length = 0 ∧ (pingAt 12).net.b.jobs.length = 0 ∧ ((pingAt 12).net.a.queue = [] ∧ (pingAt 12).net.b.queue = []) ∧
    ((pingAt 12).net.a.current = none ∧ (pingAt 12).net.b.current = none) ∧ (pingAt 12).dead = false ∧ (pingAt 12).client.cells.length = 1 ∧
    (match (pingAt 12).client.calls with | [⟨_, .over _, _, _, _⟩] => true | _ => false) = true := by decide +kernel

theorem pingAt_rest (t : Nat) : Rest (pingAt (12 + t)) := by
  induction t with
  | zero =>
    obtain ⟨h1, h2, h3, h4, h5, h6, h7⟩ := pingAt_end
    refine ⟨List.length_eq_zero_iff.1 h1, List.length_eq_zero_iff.1 h2, h3, h4, h5, h6, ?_⟩
    show ∃ (x : CCall Empty) (r : Option (Val Empty)), (pingAt 12).client.calls = [x] ∧ x.st = .over r
    split at h7
    · rename_i heq; exact ⟨_, _, heq, rfl⟩
    · cases h7
  | succ t ih =>
    show Rest ((pingAt (12 + t)).step (pingFor (12 + t)))
    unfold pingFor
    rw [if_neg (by omega)]
    exact rest_turn ih _

/-- Before that, requests are on their way at these times only. -/
theorem pingAt_way : ∀ t < 12, ((pingAt t).net.a.sending.length = if t = 2 then 1 else 0) ∧ ((pingAt t).net.b.jobs.length = if t = 5 then 1 else 0) ∧
    (pingAt t).dead = false ∧ (pingAt t).client.cells.length ≤ 1 ∧ ((pingAt t).net.b.jobs.all (fun q => q.method == lit "ping")) = true := by decide +kernel

theorem pingAt_alive (t : Nat) : (pingAt t).dead = false ∧ (pingAt t).client.cells.length ≤ 1 ∧ (t ≠ 2 → (pingAt t).net.a.sending = []) ∧ (t ≠ 5 → (pingAt t).net.b.jobs = []) := by
  by_cases h : t < 12
  · obtain ⟨h1, h2, h3, h4, -⟩ := pingAt_way t h
    refine ⟨h3, h4, fun hne => ?_, fun hne => ?_⟩
    · rw [if_neg hne] at h1; exact List.length_eq_zero_iff.1 h1
    · rw [if_neg hne] at h2; exact List.length_eq_zero_iff.1 h2
  · have hr := pingAt_rest (t - 12)
    rw [show 12 + (t - 12) = t by omega] at hr
    exact ⟨hr.dead, Nat.le_of_eq hr.cells, fun _ => hr.sending, fun _ => hr.jobs⟩

theorem pingFor_kind (t : Nat) : pingFor t = .call .ping ∨ pingFor t = .go 0 ∨ pingFor t = .deliver 0 ∨ (t = 5 ∧ pingFor t = .serve 0 echoEnv) ∨ pingFor t = .wire (.deliver false 0) ∨
    (∃ y, pingFor t = .wire (.pop y)) ∨ ∃ y, pingFor t = .wire (.handle y) := by
  by_cases h : t < 12
  · match t, h with
    | 0, _ => exact .inl rfl
    | 1, _ | 9, _ | 10, _ | 11, _ => exact .inr (.inl rfl)
    | 8, _ => exact .inr (.inr (.inl rfl))
    | 5, _ => exact .inr (.inr (.inr (.inl ⟨rfl, rfl⟩)))
    | 2, _ => exact .inr (.inr (.inr (.inr (.inl rfl))))
    | 3, _ => exact .inr (.inr (.inr (.inr (.inr (.inl ⟨true, rfl⟩)))))
    | 6, _ => exact .inr (.inr (.inr (.inr (.inr (.inl ⟨false, rfl⟩)))))
    | 4, _ => exact .inr (.inr (.inr (.inr (.inr (.inr ⟨true, rfl⟩)))))
    | 7, _ => exact .inr (.inr (.inr (.inr (.inr (.inr ⟨false, rfl⟩)))))
    | n + 12, h => exact absurd h (by omega)
  · have he : pingFor t = turn ((t - 12) % 6) := by unfold pingFor; rw [if_neg h]
    rw [he]
    generalize (t - 12) % 6 = r
    match r with
    | 0 => exact .inr (.inr (.inr (.inr (.inr (.inl ⟨false, rfl⟩)))))
    | 1 => exact .inr (.inr (.inr (.inr (.inr (.inr ⟨false, rfl⟩)))))
    | 2 => exact .inr (.inr (.inr (.inr (.inr (.inl ⟨true, rfl⟩)))))
    | 3 => exact .inr (.inr (.inr (.inr (.inr (.inr ⟨true, rfl⟩)))))
    | 4 => exact .inr (.inr (.inl rfl))
    | n + 5 => exact .inr (.inl rfl)

theorem pingAt_job {q : Request Empty} (h : q ∈ (pingAt 5).net.b.jobs) : (pingAt 5).net.b.jobs[0]? = some q ∧ q.method = lit "ping" := by
  obtain ⟨-, h2, -, -, h5⟩ := pingAt_way 5 (by decide)
  have hm := List.all_eq_true.1 h5 q h
  rw [if_pos rfl] at h2
  obtain ⟨j, hj⟩ := List.getElem?_of_mem h
  have := lt_of_get hj
  have : j = 0 := by omega
  subst this
  exact ⟨hj, eq_of_beq hm⟩

theorem pingFor_carried (t : Nat) : Carried (World.init plainSelf echoSrv) (before pingFor t) := by
  have mem : ∀ op, op ∈ before pingFor t → ∃ u, pingFor u = op := fun op h => by
    obtain ⟨u, -, hu⟩ := List.mem_map.1 h; exact ⟨u, hu⟩
  refine ⟨?_, ?_, ?_, ?_⟩
  · intro api h v hv
    obtain ⟨u, hu⟩ := mem _ h
    rcases pingFor_kind u with h1 | h1 | h1 | ⟨-, h1⟩ | h1 | ⟨y, h1⟩ | ⟨y, h1⟩ <;> rw [hu] at h1 <;> cases h1
    cases hv
  · intro op h
    obtain ⟨u, hu⟩ := mem _ h
    rcases pingFor_kind u with h1 | h1 | h1 | ⟨-, h1⟩ | h1 | ⟨y, h1⟩ | ⟨y, h1⟩ <;> rw [hu] at h1 <;> cases h1 <;> trivial
  · rintro p q env σ r ⟨i, h1, h2, -, -, h5⟩
    have hl := lt_of_get h1
    have hl' : p < t := by simpa [before] using hl
    have hp : pingFor p = .serve i env := by
      have : (before pingFor t)[p]? = some (pingFor p) := by simp [before, List.getElem?_range hl']
      rw [this] at h1
      injection h1
    have hm : q.method = lit "ping" := by
      rcases pingFor_kind p with h3 | h3 | h3 | ⟨h3, h4⟩ | h3 | ⟨y, h3⟩ | ⟨y, h3⟩
      case inr.inr.inr.inl =>
        subst h3
        have ht : (before pingFor t).take 5 = before pingFor 5 := by
          simp only [before, ← List.map_take, List.take_range]
          rw [Nat.min_eq_left (by omega)]
        rw [ht, ← states_run] at h2
        exact (pingAt_job (List.mem_of_getElem? h2)).2
      all_goals rw [hp] at h3; cases h3
    rw [ping_answer env σ hm] at h5
    exact fineOut_sound (o := .answer ⟨q.id, some (.obj []), none⟩) rfl h5
  · intro u h
    obtain ⟨v, hv⟩ := mem _ h
    rcases pingFor_kind v with h1 | h1 | h1 | ⟨-, h1⟩ | h1 | ⟨y, h1⟩ | ⟨y, h1⟩ <;> rw [hv] at h1 <;> cases h1

theorem pingFor_turns : Turns (World.init plainSelf echoSrv) pingFor 0 0 := by
  have key : ∀ r t, r < 6 → ∃ u, t ≤ u ∧ pingFor u = turn r := by
    intro r t hr
    refine ⟨12 + (6 * t + r), by omega, ?_⟩
    unfold pingFor
    rw [if_neg (by omega), show (12 + (6 * t + r) - 12) % 6 = r by omega]
  refine ⟨fun t e he => ?_, fun y t => ?_, fun y t => ?_, fun t m q _ _ hq => ?_, fun t => key 4 t (by decide), fun t => key 5 t (by decide)⟩
  · by_cases h : t = 2
    · subst h
      have hl : (pingAt 2).net.a.sending.length = 1 := (pingAt_way 2 (by decide)).1
      obtain ⟨j, hj⟩ := List.getElem?_of_mem he
      have h0 : j < (pingAt 2).net.a.sending.length := lt_of_get hj
      have : j = 0 := by omega
      subst this
      exact ⟨2, 0, Nat.le_refl _, rfl, hj⟩
    · have h0 : e ∈ (pingAt t).net.a.sending := he
      rw [(pingAt_alive t).2.2.1 h] at h0
      cases h0
  · cases y
    · exact key 0 t (by decide)
    · exact key 2 t (by decide)
  · cases y
    · exact key 1 t (by decide)
    · exact key 3 t (by decide)
  · by_cases h : t = 5
    · subst h
      obtain ⟨h1, h2⟩ := pingAt_job hq
      exact ⟨5, 0, echoEnv, _, Nat.le_refl _, rfl, h1, ping_answer echoEnv _ h2⟩
    · have h0 : q ∈ (pingAt t).net.b.jobs := hq
      rw [(pingAt_alive t).2.2.2 h] at h0
      cases h0

theorem pingAt_two : (match (pingAt 2).client.calls with | [⟨_, .check 0 _, _, _, _⟩] => true | _ => false) = true := by decide +kernel

/-- The hypotheses of `C129_settles_partial`, for an execution without end in which a call waits at time 2. -/
example : (∀ t, Carried (World.init plainSelf echoSrv) (before pingFor t)) ∧ (∀ t, (pingAt t).client.cells.length < 2 ^ 32) ∧ (∀ t op, pingFor t = .wire op → StaysOpen op) ∧
    (∀ t, (pingAt t).dead = false) ∧ Turns (World.init plainSelf echoSrv) pingFor 0 0 ∧
    ∃ (x : CCall Empty) (k : Client.Outcome Empty → CBody Empty), (pingAt 2).client.calls[0]? = some x ∧ x.st = .check 0 k := by
  refine ⟨pingFor_carried, fun t => Nat.lt_of_le_of_lt (pingAt_alive t).2.1 (by decide), fun t op h => ?_, fun t => (pingAt_alive t).1, pingFor_turns, ?_⟩
  · rcases pingFor_kind t with h1 | h1 | h1 | ⟨-, h1⟩ | h1 | ⟨y, h1⟩ | ⟨y, h1⟩ <;> rw [h] at h1 <;> cases h1 <;> trivial
  · have h := pingAt_two
    split at h
    · rename_i heq; exact ⟨_, _, by rw [heq]; rfl, rfl⟩
    · cases h

end Verif.Near
