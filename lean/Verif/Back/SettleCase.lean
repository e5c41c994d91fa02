import Verif.Back.SettleProps
import Verif.Back.Case
import Verif.Near.Case

/-! An execution without end that meets the hypotheses of `C134_settles_partial`. -/

namespace Verif.Back

open Verif.Await Verif.Client Verif.Server Verif.Shm
open Verif.Whole (fineOut_sound lt_of_get)
open Verif.Ask (pong plain_of)
open Verif.Share (NOp roomy reserved actor Ends)

/-- One turn after the other. -/
def turn : Nat → Op Empty Nat
  | 0 => .wire (.take false)
  | 1 => .wire (.handle false)
  | 2 => .wire (.take true)
  | 3 => .wire (.handle true)
  | 4 => .deliver 0
  | _ => .go 0

def pingFor (t : Nat) : Op Empty Nat := if t < 16 then pingTrip.getD t (.go 0) else turn ((t - 16) % 6)

def pingAt (t : Nat) : World Empty Nat := states roomy false (World.init roomy startedSelf readyCli) pingFor t

/-- Nothing is on its way any more. -/
structure Rest (w : World Empty Nat) : Prop where
  waits : w.waits = []
  sending : w.net.a.sending = []
  jobs : w.net.b.jobs = []
  queue : w.net.a.queue = [] ∧ w.net.b.queue = []
  current : w.net.a.current = none ∧ w.net.b.current = none
  dead : w.dead = false
  over : ∃ (x : SCall Empty) (r : SOut Empty), w.server.calls = [x] ∧ x.st = .over r

theorem rest_server {w : World Empty Nat} (h : Rest w) (s : SSys Empty) (h2 : s.calls = w.server.calls) :
    Rest { w with server := s } :=
  ⟨h.waits, h.sending, h.jobs, h.queue, h.current, h.dead, by
    obtain ⟨x, r, g1, g2⟩ := h.over
    exact ⟨x, r, by rw [← g1]; exact h2, g2⟩⟩

theorem rest_turn {w : World Empty Nat} (h : Rest w) (r : Nat) : Rest (w.step roomy false (turn r)) := by
  have hp : ∀ (x : Bool) (e : Endpoint Empty), e.queue = [] → e.take roomy x = e := by
    intro x e h1
    unfold Endpoint.take
    split
    · rw [if_neg (by cases x <;> decide), h1]
    · rfl
  have hha : w.net.a.handle = w.net.a := by unfold Endpoint.handle; rw [h.current.1]
  have hhb : w.net.b.handle = w.net.b := by unfold Endpoint.handle; rw [h.current.2]
  have key : ∀ op : NOp Empty, w.net.step roomy op = w.net → reserved false op = false → Rest (w.step roomy false (.wire op)) := by
    intro op h1 h2
    have hb : (reserved false op || (w.dead && actor op != false)) = false := by rw [h2, h.dead]; rfl
    simp only [World.step, hb, h1]
    exact h
  match r with
  | 0 => exact key _ (by simp [Net.step, Net.upd, hp false _ h.queue.1]) rfl
  | 1 => exact key _ (by simp [Net.step, Net.upd, hha]) rfl
  | 2 => exact key _ (by simp [Net.step, Net.upd, hp true _ h.queue.2]) rfl
  | 3 => exact key _ (by simp [Net.step, Net.upd, hhb]) rfl
  | 4 =>
    simp only [turn, World.step, World.deliver]
    split
    · split
      · exact rest_server h _ (Ask.rest_fill _ _ _).2
      · exact h
    · exact h
  | n + 5 =>
    obtain ⟨x, v, g1, g2⟩ := h.over
    have ha : Ask.asking w.server 0 = none := by unfold Ask.asking; rw [g1]; simp [g2]
    have hg : w.server.step (.go 0) = w.server := by
      unfold Sys.step
      split
      · rfl
      · dsimp only
        rw [g1]
        simp [Sys.go, g2]
    simp only [turn, World.step, World.go, ha]
    exact rest_server h _ (by rw [hg])

theorem pingAt_end : (pingAt 16).waits = [] ∧ (pingAt 16).net.a.sending.length = 0 ∧ (pingAt 16).net.b.jobs.length = 0 ∧ ((pingAt 16).net.a.queue = [] ∧ (pingAt 16).net.b.queue = []) ∧
    ((pingAt 16).net.a.current = none ∧ (pingAt 16).net.b.current = none) ∧ (pingAt 16).dead = false ∧
    (match (pingAt 16).server.calls with | [⟨_, .over _, _, _, _⟩] => true | _ => false) = true := by decide +kernel

theorem pingAt_rest (t : Nat) : Rest (pingAt (16 + t)) := by
  induction t with
  | zero =>
    obtain ⟨h0, h1, h2, h3, h4, h5, h7⟩ := pingAt_end
    refine ⟨h0, List.length_eq_zero_iff.1 h1, List.length_eq_zero_iff.1 h2, h3, h4, h5, ?_⟩
    show ∃ (x : SCall Empty) (r : SOut Empty), (pingAt 16).server.calls = [x] ∧ x.st = .over r
    split at h7
    · rename_i heq; exact ⟨_, _, heq, rfl⟩
    · cases h7
  | succ t ih =>
    show Rest ((pingAt (16 + t)).step roomy false (pingFor (16 + t)))
    unfold pingFor
    rw [if_neg (by omega)]
    exact rest_turn ih _

/-- Before that, requests are on their way at these times only. -/
theorem pingAt_way : ∀ t < 16, ((pingAt t).waits.length = if t = 4 then 1 else 0) ∧ ((pingAt t).net.a.sending.length = if t = 5 then 1 else 0) ∧
    ((pingAt t).net.b.jobs.length = if t = 8 then 1 else 0) ∧ (pingAt t).dead = false ∧
    ((pingAt t).net.b.jobs.all (fun q => q.method == lit "ping" && decide ((serResponse (⟨q.id, some (.obj []), none⟩ : Response Empty)).length ≤ 4096))) = true ∧
    (pingAt t).net.a.queue.length < 8 := by decide +kernel

theorem pingAt_alive (t : Nat) : (pingAt t).dead = false ∧ (t ≠ 4 → (pingAt t).waits = []) ∧ (t ≠ 5 → (pingAt t).net.a.sending = []) ∧ (t ≠ 8 → (pingAt t).net.b.jobs = []) := by
  by_cases h : t < 16
  · obtain ⟨h0, h1, h2, h3, -⟩ := pingAt_way t h
    refine ⟨h3, fun hne => ?_, fun hne => ?_, fun hne => ?_⟩
    · rw [if_neg hne] at h0; exact List.length_eq_zero_iff.1 h0
    · rw [if_neg hne] at h1; exact List.length_eq_zero_iff.1 h1
    · rw [if_neg hne] at h2; exact List.length_eq_zero_iff.1 h2
  · have hr := pingAt_rest (t - 16)
    rw [show 16 + (t - 16) = t by omega] at hr
    exact ⟨hr.dead, fun _ => hr.waits, fun _ => hr.sending, fun _ => hr.jobs⟩

theorem pingFor_kind (t : Nat) : pingFor t = .call .ping ∨ pingFor t = .go 0 ∨ pingFor t = .deliver 0 ∨ (t = 8 ∧ pingFor t = .serve 0 echoCli) ∨ pingFor t = .wire (.deliver false 0) ∨
    (∃ y, pingFor t = .wire (.take y)) ∨ (∃ y, pingFor t = .wire (.handle y)) ∨ pingFor t = .file 0 := by
  by_cases h : t < 16
  · match t, h with
    | 0, _ => exact .inl rfl
    | 1, _ | 2, _ | 3, _ | 12, _ | 13, _ | 14, _ | 15, _ => exact .inr (.inl rfl)
    | 11, _ => exact .inr (.inr (.inl rfl))
    | 8, _ => exact .inr (.inr (.inr (.inl ⟨rfl, rfl⟩)))
    | 5, _ => exact .inr (.inr (.inr (.inr (.inl rfl))))
    | 6, _ => exact .inr (.inr (.inr (.inr (.inr (.inl ⟨true, rfl⟩)))))
    | 9, _ => exact .inr (.inr (.inr (.inr (.inr (.inl ⟨false, rfl⟩)))))
    | 7, _ => exact .inr (.inr (.inr (.inr (.inr (.inr (.inl ⟨true, rfl⟩))))))
    | 10, _ => exact .inr (.inr (.inr (.inr (.inr (.inr (.inl ⟨false, rfl⟩))))))
    | 4, _ => exact .inr (.inr (.inr (.inr (.inr (.inr (.inr rfl))))))
    | n + 16, h => exact absurd h (by omega)
  · have he : pingFor t = turn ((t - 16) % 6) := by unfold pingFor; rw [if_neg h]
    rw [he]
    generalize (t - 16) % 6 = r
    match r with
    | 0 => exact .inr (.inr (.inr (.inr (.inr (.inl ⟨false, rfl⟩)))))
    | 1 => exact .inr (.inr (.inr (.inr (.inr (.inr (.inl ⟨false, rfl⟩))))))
    | 2 => exact .inr (.inr (.inr (.inr (.inr (.inl ⟨true, rfl⟩)))))
    | 3 => exact .inr (.inr (.inr (.inr (.inr (.inr (.inl ⟨true, rfl⟩))))))
    | 4 => exact .inr (.inr (.inl rfl))
    | n + 5 => exact .inr (.inl rfl)

theorem pingAt_job {q : Request Empty} (h : q ∈ (pingAt 8).net.b.jobs) : (pingAt 8).net.b.jobs[0]? = some q ∧ q.method = lit "ping" ∧
    (serResponse (⟨q.id, some (.obj []), none⟩ : Response Empty)).length ≤ 4096 := by
  obtain ⟨-, -, h2, -, h5, -⟩ := pingAt_way 8 (by decide)
  have hm := List.all_eq_true.1 h5 q h
  simp only [Bool.and_eq_true, decide_eq_true_eq] at hm
  rw [if_pos rfl] at h2
  obtain ⟨j, hj⟩ := List.getElem?_of_mem h
  have := lt_of_get hj
  have : j = 0 := by omega
  subst this
  exact ⟨hj, eq_of_beq hm.1, hm.2⟩

theorem pingFor_carried (t : Nat) : Carried roomy false (World.init roomy startedSelf readyCli) (before pingFor t) := by
  have mem : ∀ op, op ∈ before pingFor t → ∃ u, pingFor u = op := fun op h => by
    obtain ⟨u, -, hu⟩ := List.mem_map.1 h; exact ⟨u, hu⟩
  refine ⟨?_, ?_, ?_, ?_⟩
  · intro api h
    obtain ⟨u, hu⟩ := mem _ h
    rcases pingFor_kind u with h1 | h1 | h1 | ⟨-, h1⟩ | h1 | ⟨y, h1⟩ | ⟨y, h1⟩ | h1 <;> rw [hu] at h1 <;> cases h1
    exact ⟨fun c hc => (nomatch hc), plain_of (by decide +kernel), by decide, fun v hv => (nomatch hv)⟩
  · intro op h
    obtain ⟨u, hu⟩ := mem _ h
    rcases pingFor_kind u with h1 | h1 | h1 | ⟨-, h1⟩ | h1 | ⟨y, h1⟩ | ⟨y, h1⟩ | h1 <;> rw [hu] at h1 <;> cases h1 <;> trivial
  · rintro p q env σ r ⟨i, h1, h2, -, -, h5⟩
    have hl := lt_of_get h1
    have hl' : p < t := by simpa [before] using hl
    have hp : pingFor p = .serve i env := by
      have : (before pingFor t)[p]? = some (pingFor p) := by simp [before, List.getElem?_range hl']
      rw [this] at h1
      injection h1
    have hm : q.method = lit "ping" := by
      rcases pingFor_kind p with h3 | h3 | h3 | ⟨h3, h4⟩ | h3 | ⟨y, h3⟩ | ⟨y, h3⟩ | h3
      case inr.inr.inr.inl =>
        subst h3
        have ht : (before pingFor t).take 8 = before pingFor 8 := by
          simp only [before, ← List.map_take, List.take_range]
          rw [Nat.min_eq_left (by omega)]
        rw [ht, ← states_run] at h2
        exact (pingAt_job (List.mem_of_getElem? h2)).2.1
      all_goals rw [hp] at h3; cases h3
    rw [pong env σ hm] at h5
    exact fineOut_sound (o := .answer ⟨q.id, some (.obj []), none⟩) rfl h5
  · intro u h
    obtain ⟨v, hv⟩ := mem _ h
    rcases pingFor_kind v with h1 | h1 | h1 | ⟨-, h1⟩ | h1 | ⟨y, h1⟩ | ⟨y, h1⟩ | h1 <;> rw [hv] at h1 <;> cases h1

theorem pingFor_turns : Turns roomy false (World.init roomy startedSelf readyCli) pingFor 0 0 := by
  have key : ∀ r t, r < 6 → ∃ u, t ≤ u ∧ pingFor u = turn r := by
    intro r t hr
    refine ⟨16 + (6 * t + r), by omega, ?_⟩
    unfold pingFor
    rw [if_neg (by omega), show (16 + (6 * t + r) - 16) % 6 = r by omega]
  refine ⟨fun t j hj => ?_, fun t e he => ?_, fun y t => ?_, fun y t => ?_, fun t m q _ _ hq => ?_, fun t => key 4 t (by decide), fun t => key 5 t (by decide)⟩
  · by_cases h : t = 4
    · subst h
      have hl : (pingAt 4).waits.length = 1 := (pingAt_way 4 (by decide)).1
      have h0 : j < (pingAt 4).waits.length := lt_of_get hj
      have : j = 0 := by omega
      subst this
      exact ⟨4, 0, Nat.le_refl _, rfl, hj⟩
    · have h0 : (pingAt t).waits[j]? = some 0 := hj
      rw [(pingAt_alive t).2.1 h] at h0
      cases h0
  · by_cases h : t = 5
    · subst h
      have hl : (pingAt 5).net.a.sending.length = 1 := (pingAt_way 5 (by decide)).2.1
      obtain ⟨j, hj⟩ := List.getElem?_of_mem he
      have h0 : j < (pingAt 5).net.a.sending.length := lt_of_get hj
      have : j = 0 := by omega
      subst this
      exact ⟨5, 0, Nat.le_refl _, rfl, hj⟩
    · have h0 : e ∈ (pingAt t).net.a.sending := he
      rw [(pingAt_alive t).2.2.1 h] at h0
      cases h0
  · cases y
    · exact key 0 t (by decide)
    · exact key 2 t (by decide)
  · cases y
    · exact key 1 t (by decide)
    · exact key 3 t (by decide)
  · by_cases h : t = 8
    · subst h
      obtain ⟨h1, h2, h3⟩ := pingAt_job hq
      exact ⟨8, 0, echoCli, _, Nat.le_refl _, rfl, h1, pong echoCli _ h2, h3, h3, (pingAt_way 8 (by decide)).2.2.2.2.2⟩
    · have h0 : q ∈ (pingAt t).net.b.jobs := hq
      rw [(pingAt_alive t).2.2.2 h] at h0
      cases h0

theorem pingAt_four : (match (pingAt 4).server.calls with | [⟨_, .check 0 _, _, _, [.saw _, .saw _, .sent 0 q]⟩] => q.method == lit "ping" && q.params == none && q.id == none | _ => false) = true := by decide +kernel

/-- The hypotheses of `C134_settles_partial`, for an execution without end in which a call waits at time 4. -/
example : (∀ t, Carried roomy false (World.init roomy startedSelf readyCli) (before pingFor t)) ∧ roomy.sizeA ≤ roomy.sizeB ∧ (∀ t op, pingFor t = .wire op → ¬ Ends op) ∧
    (∀ t, (pingAt t).dead = false) ∧ Turns roomy false (World.init roomy startedSelf readyCli) pingFor 0 0 ∧
    ∃ (z : SCall Empty) (k : Client.Outcome Empty → SBody Empty), (pingAt 4).server.calls[0]? = some z ∧ z.st = .check 0 k ∧
      ∀ q, Ev.sent 0 q ∈ z.path → ¬ ReqSays (lit "result") (Ask.asRequest q) ∧ ¬ ReqSays (lit "error") (Ask.asRequest q) := by
  refine ⟨pingFor_carried, by decide, fun t op h => ?_, fun t => (pingAt_alive t).1, pingFor_turns, ?_⟩
  · rcases pingFor_kind t with h1 | h1 | h1 | ⟨-, h1⟩ | h1 | ⟨y, h1⟩ | ⟨y, h1⟩ | h1 <;> rw [h] at h1 <;> cases h1 <;> exact fun e => e
  · have h := pingAt_four
    split at h
    · rename_i q heq
      refine ⟨_, _, by rw [heq]; rfl, rfl, fun q' hq' => ?_⟩
      simp only [List.mem_cons, reduceCtorEq, List.not_mem_nil, or_false, false_or, Ev.sent.injEq, true_and] at hq'
      subst hq'
      simp only [Bool.and_eq_true, beq_iff_eq] at h
      have no : ∀ w : Bytes, w ≠ [] → w ≠ lit "ping" → ¬ ReqSays w (Ask.asRequest q') := by
        rintro w h1 h2 (h3 | h3 | h3)
        · have h3 : q'.id.getD [] = w := h3
          rw [h.2] at h3
          exact h1 h3.symm
        · exact h2 (by rw [← h.1.1]; exact h3.symm)
        · have h3 : SaysParams w q'.params := h3
          rw [h.1.2] at h3
          simp [SaysParams] at h3
      exact ⟨no _ (by decide) (by decide), no _ (by decide) (by decide)⟩
    · cases h

end Verif.Back
