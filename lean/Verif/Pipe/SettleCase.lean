import Verif.Pipe.Case

/-! An execution without end that meets the hypotheses of `C135_settles_partial`. -/

namespace Verif.Pipe

open Verif.Await Verif.Client Verif.Server Verif.Duplex Verif.Stdio
open Verif.Whole (fineOut_sound lt_of_get quietCfg own_empty)
open Verif.Ask (pong plain_of)

def pingStart : List (Op Empty Nat) := [.call .ping, .go 0, .go 0, .go 0, .wire false (.file 0 0)]

/-- One turn after the other. -/
def turn : Nat → Op Empty Nat
  | 0 => .wire false (.push 0)
  | 1 => .wire false .dequeue
  | 2 => .wire false (.write 0)
  | 3 => .wire false .finish
  | 4 => .wire false (.read 0)
  | 5 => .wire false .decode
  | 6 => .wire false (.work false)
  | 7 => .wire true (.push 0)
  | 8 => .wire true .dequeue
  | 9 => .wire true (.write 0)
  | 10 => .wire true .finish
  | 11 => .wire true (.read 0)
  | 12 => .wire true .decode
  | 13 => .serve echoCli
  | 14 => .deliver 0
  | _ => .go 0

def pingFor (t : Nat) : Op Empty Nat := if t < 5 then pingStart.getD t (.go 0) else turn ((t - 5) % 16)

theorem pingFor_turns : WTurns pingFor 0 0 := by
  have key : ∀ r t, r < 16 → ∃ u, t ≤ u ∧ pingFor u = turn r := by
    intro r t hr
    refine ⟨5 + (16 * t + r), by omega, ?_⟩
    unfold pingFor
    rw [if_neg (by omega), show (5 + (16 * t + r) - 5) % 16 = r by omega]
  refine ⟨fun y t => ?_, fun y t => ?_, fun y t => ?_, fun y t => ?_, fun y t => ?_, fun y t => ?_, fun t => ?_, fun t => ?_, fun t => ?_, fun t => ?_⟩
  · cases y
    · exact key 0 t (by decide)
    · exact key 7 t (by decide)
  · cases y
    · exact key 1 t (by decide)
    · exact key 8 t (by decide)
  · cases y
    · obtain ⟨u, h⟩ := key 2 t (by decide); exact ⟨u, 0, h⟩
    · obtain ⟨u, h⟩ := key 9 t (by decide); exact ⟨u, 0, h⟩
  · cases y
    · exact key 3 t (by decide)
    · exact key 10 t (by decide)
  · cases y
    · obtain ⟨u, h⟩ := key 4 t (by decide); exact ⟨u, 0, h⟩
    · obtain ⟨u, h⟩ := key 11 t (by decide); exact ⟨u, 0, h⟩
  · cases y
    · exact key 5 t (by decide)
    · exact key 12 t (by decide)
  · obtain ⟨u, h⟩ := key 6 t (by decide); exact ⟨u, false, h⟩
  · obtain ⟨u, h⟩ := key 13 t (by decide); exact ⟨u, echoCli, h⟩
  · exact key 14 t (by decide)
  · exact key 15 t (by decide)

/-- What each step of the execution can be. -/
theorem pingFor_kind (t : Nat) : (t = 0 ∧ pingFor t = .call .ping) ∨ (t = 4 ∧ pingFor t = .wire false (.file 0 0)) ∨
    (∃ y op, pingFor t = .wire y op ∧ Internal op) ∨ (5 ≤ t ∧ pingFor t = .serve echoCli) ∨ pingFor t = .deliver 0 ∨ pingFor t = .go 0 := by
  by_cases h : t < 5
  · match t, h with
    | 0, _ => exact .inl ⟨rfl, rfl⟩
    | 1, _ | 2, _ | 3, _ => exact .inr (.inr (.inr (.inr (.inr rfl))))
    | 4, _ => exact .inr (.inl ⟨rfl, rfl⟩)
  · have he : pingFor t = turn ((t - 5) % 16) := by unfold pingFor; rw [if_neg h]
    rw [he]
    have hl : (t - 5) % 16 < 16 := Nat.mod_lt _ (by decide)
    generalize (t - 5) % 16 = r at hl
    right; right
    match r, hl with
    | 0, _ => exact .inl ⟨_, _, rfl, .push 0⟩
    | 1, _ => exact .inl ⟨_, _, rfl, .dequeue⟩
    | 2, _ => exact .inl ⟨_, _, rfl, .write 0⟩
    | 3, _ => exact .inl ⟨_, _, rfl, .finish⟩
    | 4, _ => exact .inl ⟨_, _, rfl, .read 0⟩
    | 5, _ => exact .inl ⟨_, _, rfl, .decode⟩
    | 6, _ => exact .inl ⟨_, _, rfl, .work _⟩
    | 7, _ => exact .inl ⟨_, _, rfl, .push 0⟩
    | 8, _ => exact .inl ⟨_, _, rfl, .dequeue⟩
    | 9, _ => exact .inl ⟨_, _, rfl, .write 0⟩
    | 10, _ => exact .inl ⟨_, _, rfl, .finish⟩
    | 11, _ => exact .inl ⟨_, _, rfl, .read 0⟩
    | 12, _ => exact .inl ⟨_, _, rfl, .decode⟩
    | 13, _ => exact .inr (.inl ⟨by omega, rfl⟩)
    | 14, _ => exact .inr (.inr (.inl rfl))
    | 15, _ => exact .inr (.inr (.inr rfl))
    | n + 16, h => exact absurd h (by omega)

theorem pingFor_call (t : Nat) (api : SApi Empty) (ht : 5 ≤ t) : pingFor t ≠ .call api := by
  intro h
  rcases pingFor_kind t with ⟨h0, -⟩ | ⟨h0, -⟩ | ⟨y, op, h1, -⟩ | ⟨-, h1⟩ | h1 | h1
  · omega
  · omega
  all_goals rw [h] at h1; cases h1

theorem pingFor_wire (t : Nat) (y : Bool) (op : EndOp Empty) (ht : 5 ≤ t) (h : pingFor t = .wire y op) : Internal op := by
  rcases pingFor_kind t with ⟨h0, -⟩ | ⟨h0, -⟩ | ⟨y', op', h1, h2⟩ | ⟨-, h1⟩ | h1 | h1
  · omega
  · omega
  · rw [h] at h1; cases h1; exact h2
  all_goals rw [h] at h1; cases h1

def pingAt (t : Nat) : World Empty Nat := states quietCfg (World.init startedSelf readyCli) pingFor t

/-- The call waits: its request is filed. -/
theorem pingAt_five : (pingAt 5).pair.a.given.map (·.id) = [.str []] ∧ (pingAt 5).pair.a.given.map (·.method) = [lit "ping"] ∧ (pingAt 5).pair.b.given.length = 0 ∧
    (pingAt 5).pair.a.p.checked.length = 0 ∧ (pingAt 5).pair.b.p.checked.length = 0 ∧ (pingAt 5).dead = false ∧
    (match (pingAt 5).server.calls with | [⟨_, .check 0 _, _, _, _⟩] => true | _ => false) = true := by decide +kernel

theorem pingAt_call : ∃ (x : SCall Empty) (k : Client.Outcome Empty → SBody Empty), (pingAt 5).server.calls = [x] ∧ x.st = .check 0 k := by
  have h := pingAt_five.2.2.2.2.2.2
  split at h
  · rename_i heq; exact ⟨_, _, heq, rfl⟩
  · cases h

theorem pingAt_sent (i : Nat) (x : SCall Empty) (hx : (pingAt 5).server.calls[i]? = some x) (b : SBody Empty) : x.st ≠ .run b := by
  obtain ⟨y, k, h1, h2⟩ := pingAt_call
  rw [h1] at hx
  cases i with
  | zero => cases hx; rw [h2]; exact fun h => nomatch h
  | succ i => cases hx

theorem pingAt_asked {t : Nat} (ht : 5 ≤ t) (hc : Carried quietCfg (World.init startedSelf readyCli) (before pingFor t)) {j : Duplex.Job Empty}
    (hj : (pingAt t).pair.b.job = some j) : j.req.method = lit "ping" := by
  have hw : pingAt t = (World.init startedSelf readyCli).run quietCfg (before pingFor t) := states_run ..
  have hg : Good (pingAt t).pair := by rw [hw]; exact good_world quietCfg startedSelf readyCli _
  have hpl : PlainPair (pingAt t).pair := by rw [hw]; exact plain_world _ _ _ _ hc
  have hq : j.req ∈ requestsIn ((pingAt t).pair.get true).taken := by
    rw [(hg true).jobs]
    refine List.mem_append_right _ ?_
    show j.req ∈ ((pingAt t).pair.b.job.map (·.req)).toList
    rw [hj]; exact List.mem_cons_self ..
  obtain ⟨n, k, dl, q0, -, h2, -, h4, -⟩ := taken_request hg hpl hq
  rw [h4]
  have hsame : (pingAt t).pair.a.given = (pingAt 5).pair.a.given :=
    given_after (c := quietCfg) (s0 := startedSelf) (cli := readyCli) (f := pingFor) (y := false) (fun q => echo_alone q) pingFor_call pingAt_sent pingFor_wire ht
  have hmem : q0 ∈ (pingAt 5).pair.a.given := by rw [← hsame]; exact List.mem_of_getElem? h2
  have : q0.method ∈ (pingAt 5).pair.a.given.map (·.method) := List.mem_map_of_mem hmem
  rw [pingAt_five.2.1] at this
  exact List.mem_singleton.1 this

theorem pingFor_carried (t : Nat) : Carried quietCfg (World.init startedSelf readyCli) (before pingFor t) := by
  induction t using Nat.strongRecOn with
  | _ t ih =>
    have mem : ∀ op, op ∈ before pingFor t → ∃ u, pingFor u = op := fun op h => by
      obtain ⟨u, -, hu⟩ := List.mem_map.1 h; exact ⟨u, hu⟩
    refine ⟨echo_plain, ?_, ?_, ?_, ?_⟩
    · intro api h
      obtain ⟨u, hu⟩ := mem _ h
      rcases pingFor_kind u with ⟨-, h1⟩ | ⟨-, h1⟩ | ⟨y, op, h1, -⟩ | ⟨-, h1⟩ | h1 | h1 <;> rw [hu] at h1 <;> cases h1
      exact ⟨fun c hc => (nomatch hc), plain_of (by decide +kernel), by decide, fun v hv => (nomatch hv)⟩
    · intro y op h
      obtain ⟨u, hu⟩ := mem _ h
      rcases pingFor_kind u with ⟨-, h1⟩ | ⟨-, h1⟩ | ⟨y, op, h1, h2⟩ | ⟨-, h1⟩ | h1 | h1 <;> rw [hu] at h1 <;> cases h1
      · trivial
      · cases h2 <;> trivial
    · intro p q env σ r h
      obtain ⟨h1, h2, ⟨j, hj, rfl⟩, -, -, h6⟩ := dispatched_before h
      have hp : 5 ≤ p := by
        rcases pingFor_kind p with ⟨-, h3⟩ | ⟨-, h3⟩ | ⟨y, op, h3, -⟩ | ⟨h3, -⟩ | h3 | h3
        · rw [h2] at h3; cases h3
        · rw [h2] at h3; cases h3
        · rw [h2] at h3; cases h3
        · exact h3
        · rw [h2] at h3; cases h3
        · rw [h2] at h3; cases h3
      rw [pong env σ (pingAt_asked hp (ih p h1) hj)] at h6
      exact fineOut_sound (o := .answer ⟨j.req.id, some (.obj []), none⟩) rfl h6
    · intro u h
      obtain ⟨v, hv⟩ := mem _ h
      rcases pingFor_kind v with ⟨-, h1⟩ | ⟨-, h1⟩ | ⟨y, op, h1, h2⟩ | ⟨-, h1⟩ | h1 | h1 <;> rw [hv] at h1 <;> cases h1

theorem pingFor_calming : Calming quietCfg (World.init startedSelf readyCli) pingFor 5 := by
  refine ⟨fun t api ht => pingFor_call t api ht, pingAt_sent, fun t y op ht h => pingFor_wire t y op ht h, ?_, pingAt_five.2.2.2.2.2.1, ?_⟩
  · intro t env j ht _ hj
    exact ⟨_, pong env _ (pingAt_asked ht (pingFor_carried t) hj)⟩
  · intro y
    cases y
    · exact List.length_eq_zero_iff.1 pingAt_five.2.2.2.1
    · exact List.length_eq_zero_iff.1 pingAt_five.2.2.2.2.1

/-- The hypotheses of `C135_settles_partial`, for an execution without end in which a call waits at time 5. -/
example : (∀ t, Carried quietCfg (World.init startedSelf readyCli) (before pingFor t)) ∧ (∀ q, Alone (quietCfg.handler q)) ∧
    (∀ y, OwnTexts (((pingAt 5).pair.get y).given.map (·.id))) ∧ Calming quietCfg (World.init startedSelf readyCli) pingFor 5 ∧ WTurns pingFor 0 0 ∧
    ∃ (x : SCall Empty) (k : Client.Outcome Empty → SBody Empty), (pingAt 5).server.calls[0]? = some x ∧ x.st = .check 0 k := by
  refine ⟨pingFor_carried, fun q => echo_alone q, fun y => ?_, pingFor_calming, pingFor_turns, ?_⟩
  · cases y
    · show OwnTexts ((pingAt 5).pair.a.given.map (·.id))
      rw [pingAt_five.1]; exact own_empty
    · show OwnTexts ((pingAt 5).pair.b.given.map (·.id))
      rw [List.length_eq_zero_iff.1 pingAt_five.2.2.1]; exact own_none
  · obtain ⟨x, k, h1, h2⟩ := pingAt_call
    exact ⟨x, k, by rw [h1]; rfl, h2⟩

end Verif.Pipe
