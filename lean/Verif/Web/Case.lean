import Verif.Web.SettleProps
import Verif.Whole.Case

/-! Concrete executions that meet the hypotheses of the theorems C116. -/

namespace Verif.Web

open Verif.Await Verif.Client Verif.Server Verif.Http
open Verif.Whole (fine_sound fineOut fineOut_sound toolArgs lt_of_get)

def webCfg : LinkCfg :=
  ⟨⟨[], lit "/rpc", lit "/notify", true, true⟩, lit "localhost", lit "/mcp", ⟨lit "127.0.0.1", lit "/rpc", lit "/notify", lit "/mcp", []⟩,
    AuthCfg.init, fun a => a == lit "127.0.0.1"⟩

/-- Two calls at once; the server serves the second first, the answers come back in the order of the calls. -/
def webTrip : List (Op Empty Nat) :=
  [.wire .start, .call (.callTool (lit "t") toolArgs), .call (.getPrompt (lit "p") toolArgs), .go 0, .go 0, .go 1, .go 1, .wire (.file 0), .wire (.file 1), .wire (.begin 0),
   .wire (.begin 1), .serve 1 0 [] echoEnv true true [], .serve 0 0 [] echoEnv true true [], .wire (.arrive demoClient 0), .wire (.arrive demoClient 1),
   .deliver 0, .deliver 1, .go 0, .go 0, .go 0, .go 1, .go 1, .go 1]

/-- What is dispatched with the step `n`, if that serves flight `i`, survives the wire format. -/
def fineAt (n i : Nat) : Bool :=
  match ((World.init plainSelf echoSrv).run webCfg (webTrip.take n)).served webCfg i 0 [] echoEnv true true [] with
  | some out => match out.handled with | (q, _) :: _ => fineOut (dispatch echoEnv ((World.init plainSelf echoSrv).run webCfg (webTrip.take n)).srv q).1 | [] => true
  | none => true

theorem fineAt_sound {n i : Nat} (h : fineAt n i = true) {out : Served Empty} {q : Request Empty} {tok : Option TokenInfo} {rest : List (Request Empty × Option TokenInfo)}
    {r : Response Empty} (h1 : ((World.init plainSelf echoSrv).run webCfg (webTrip.take n)).served webCfg i 0 [] echoEnv true true [] = some out)
    (h2 : out.handled = (q, tok) :: rest) (h3 : (dispatch echoEnv ((World.init plainSelf echoSrv).run webCfg (webTrip.take n)).srv q).1 = .answer r) : PlainAnswer (.resp r) := by
  unfold fineAt at h
  rw [h1] at h
  simp only [h2] at h
  exact fineOut_sound h h3

theorem webTrip_serves {p i : Nat} {now : Int} {a : Bytes} {env : Env Empty Nat} {n e : Bool} {d : Bytes} (hp : p < 23) (h : webTrip[p]? = some (.serve i now a env n e d)) :
    (p = 11 ∧ i = 1 ∧ now = 0 ∧ a = [] ∧ env = echoEnv ∧ n = true ∧ e = true ∧ d = []) ∨
    (p = 12 ∧ i = 0 ∧ now = 0 ∧ a = [] ∧ env = echoEnv ∧ n = true ∧ e = true ∧ d = []) := by
  match p, hp with
  | 11, _ => cases h; exact .inl ⟨rfl, rfl, rfl, rfl, rfl, rfl, rfl, rfl⟩
  | 12, _ => cases h; exact .inr ⟨rfl, rfl, rfl, rfl, rfl, rfl, rfl, rfl⟩
  | 0, _ | 1, _ | 2, _ | 3, _ | 4, _ | 5, _ | 6, _ | 7, _ | 8, _ | 9, _ | 10, _ | 13, _ | 14, _ | 15, _ | 16, _ | 17, _ | 18, _ | 19, _ | 20, _ | 21, _ | 22, _ => cases h

theorem webTrip_carried : Carried webCfg (World.init plainSelf echoSrv) webTrip := by
  refine ⟨fun v token m hv => (by cases hv), ?_, ?_, ?_, ?_⟩
  · intro api h v hv
    simp only [webTrip, List.mem_cons, List.not_mem_nil, or_false, reduceCtorEq, false_or] at h
    rcases h with h | h <;> cases h <;> cases hv <;> exact (fine_sound (lit "error") _ (by decide +kernel)).1
  · intro op h
    simp only [webTrip, List.mem_cons, List.not_mem_nil, or_false, reduceCtorEq, false_or] at h
    rcases h with h | h | h | h | h | h | h <;> cases h <;> trivial
  · rintro p q env σ r ⟨i, now, a, n, e, d, out, tok, rest, h1, h2, h3, rfl, h5⟩
    rcases webTrip_serves (lt_of_get h1) h1 with ⟨rfl, rfl, rfl, rfl, rfl, rfl, rfl, rfl⟩ | ⟨rfl, rfl, rfl, rfl, rfl, rfl, rfl, rfl⟩
    · exact fineAt_sound (by decide +kernel) h2 h3 h5
    · exact fineAt_sound (by decide +kernel) h2 h3 h5
  · intro u h
    simp [webTrip] at h

/-- Both calls are over, with the values of the handlers of the server: the case of `C116_matched_partial`, `C116_tool_partial` and `C116_prompt_partial`. -/
example : Carried webCfg (World.init plainSelf echoSrv) webTrip ∧
    let w := (World.init plainSelf echoSrv).run webCfg webTrip
    w.slots.length < 2 ^ 32 ∧ w.slots = [.fut 0, .fut 1] ∧ w.srv.runs.length = 1 ∧ w.link.handled.length = 2 ∧
    (match w.client.calls with
      | [⟨_, .over (some (.json v)), _, _, _⟩, ⟨_, .over (some (.json u)), _, _, _⟩] =>
        v.get? (lit "structuredContent") == some toolArgs && u == (.obj [(lit "description", .str (lit "d")), (lit "messages", .arr [])] : JVal Empty)
      | _ => false) = true :=
  ⟨webTrip_carried, by decide +kernel⟩

/-- The client is not connected: the calls are told so. -/
example : let w := (World.init plainSelf echoSrv).run webCfg [.call (.callTool (lit "t") toolArgs), .go 0, .go 0, .deliver 0, .go 0, .go 0, .go 0]
    w.slots = [.fut 0] ∧ (match w.client.calls with | [⟨_, .over (some (.json v)), _, _, _⟩] => isErrorObject v | _ => false) = true := by
  decide +kernel

/-! ### An execution without end -/

/-- Every number again and again: 0, 0, 1, 0, 1, 2, … -/
def rounds : Nat → Nat × Nat
  | 0 => (0, 0)
  | q + 1 => if (rounds q).1 = (rounds q).2 then (0, (rounds q).2 + 1) else ((rounds q).1 + 1, (rounds q).2)

theorem rounds_within {q b : Nat} (h : rounds q = (0, b)) (k : Nat) (hk : k ≤ b) : rounds (q + k) = (k, b) := by
  induction k with
  | zero => exact h
  | succ k ih =>
    have := ih (by omega)
    show (if (rounds (q + k)).1 = (rounds (q + k)).2 then (0, (rounds (q + k)).2 + 1) else ((rounds (q + k)).1 + 1, (rounds (q + k)).2)) = _
    rw [this, if_neg (by simp; omega)]

theorem rounds_start (b : Nat) : ∃ q, b ≤ q ∧ rounds q = (0, b) := by
  induction b with
  | zero => exact ⟨0, Nat.le_refl _, rfl⟩
  | succ b ih =>
    obtain ⟨q, h1, h2⟩ := ih
    refine ⟨q + b + 1, by omega, ?_⟩
    show (if _ then _ else _) = _
    rw [rounds_within h2 b (Nat.le_refl _), if_pos rfl]

theorem rounds_again (k t : Nat) : ∃ q, t ≤ q ∧ (rounds q).1 = k := by
  obtain ⟨q, h1, h2⟩ := rounds_start (t + k)
  exact ⟨q + k, by omega, by rw [rounds_within h2 k (by omega)]⟩

/-- One turn after the other; the exchanges that had no end fail. -/
def webTurn (r k : Nat) : Op Empty Nat :=
  match r with
  | 0 => .wire (.file k)
  | 1 => .wire (.begin k)
  | 2 => .wire (.lose demoClient k)
  | 3 => .deliver 0
  | _ => .go 0

def webFor (t : Nat) : Op Empty Nat := if t < 23 then webTrip.getD t (.go 0) else webTurn ((t - 23) % 5) (rounds ((t - 23) / 5)).1

theorem webFor_turns : Turns webCfg (World.init plainSelf echoSrv) webFor 0 0 := by
  have key : ∀ r k t, r < 5 → ∃ u, t ≤ u ∧ webFor u = webTurn r k := by
    intro r k t hr
    obtain ⟨q, h1, h2⟩ := rounds_again k t
    refine ⟨23 + (5 * q + r), by omega, ?_⟩
    unfold webFor
    rw [if_neg (by omega), show (23 + (5 * q + r) - 23) % 5 = r by omega, show (23 + (5 * q + r) - 23) / 5 = q by omega, h2]
  refine ⟨fun k t => key 0 k t (by decide), fun k t => ?_, fun j t => ?_, fun t => key 3 0 t (by decide), fun t => key 4 0 t (by decide)⟩
  · obtain ⟨u, h1, h2⟩ := key 1 k t (by decide); exact ⟨u, h1, .inl h2⟩
  · obtain ⟨u, h1, h2⟩ := key 2 j t (by decide); exact ⟨u, demoClient, h1, .inl h2⟩

/-- What each later step of the execution can be. -/
theorem webFor_late {t : Nat} (ht : 23 ≤ t) : (∃ k, webFor t = .wire (.file k)) ∨ (∃ k, webFor t = .wire (.begin k)) ∨ (∃ k, webFor t = .wire (.lose demoClient k)) ∨
    webFor t = .deliver 0 ∨ webFor t = .go 0 := by
  unfold webFor
  rw [if_neg (by omega)]
  have hl : (t - 23) % 5 < 5 := Nat.mod_lt _ (by decide)
  generalize (t - 23) % 5 = r at hl
  match r, hl with
  | 0, _ => exact .inl ⟨_, rfl⟩
  | 1, _ => exact .inr (.inl ⟨_, rfl⟩)
  | 2, _ => exact .inr (.inr (.inl ⟨_, rfl⟩))
  | 3, _ => exact .inr (.inr (.inr (.inl rfl)))
  | 4, _ => exact .inr (.inr (.inr (.inr rfl)))
  | n + 5, h => exact absurd h (by omega)

theorem webFor_early {t : Nat} (ht : t < 23) : webTrip[t]? = some (webFor t) := by
  unfold webFor
  rw [if_pos ht, List.getD_eq_getElem?_getD, List.getElem?_eq_getElem (by exact ht)]
  rfl

theorem webFor_take {t p : Nat} (hp : p ≤ t) (h : p ≤ 23) : (before webFor t).take p = webTrip.take p := by
  refine List.ext_getElem? fun i => ?_
  simp only [List.getElem?_take]
  split
  · rename_i hi
    rw [webFor_early (by omega)]
    simp [before, List.getElem?_range (show i < t by omega)]
  · rfl

theorem webFor_carried (t : Nat) : Carried webCfg (World.init plainSelf echoSrv) (before webFor t) := by
  have mem : ∀ op, op ∈ before webFor t → op ∈ webTrip ∨ ((∃ k, op = .wire (.file k)) ∨ (∃ k, op = .wire (.begin k)) ∨ (∃ k, op = .wire (.lose demoClient k)) ∨
      op = .deliver 0 ∨ op = .go 0) := fun op h => by
    obtain ⟨u, -, rfl⟩ := List.mem_map.1 h
    by_cases hu : u < 23
    · exact .inl (List.mem_of_getElem? (webFor_early hu))
    · exact .inr (webFor_late (by omega))
  have hc := webTrip_carried
  refine ⟨hc.reasons, ?_, ?_, ?_, ?_⟩
  · intro api h
    rcases mem _ h with h | ⟨k, h⟩ | ⟨k, h⟩ | ⟨k, h⟩ | h | h
    · exact hc.calls api h
    all_goals cases h
  · intro op h
    rcases mem _ h with h | ⟨k, h⟩ | ⟨k, h⟩ | ⟨k, h⟩ | h | h
    · exact hc.wires op h
    all_goals cases h <;> trivial
  · rintro p q env σ r ⟨i, now, a, n, e, d, out, tok, rest, h1, h2, h3, rfl, h5⟩
    have hp : p < t := by have := lt_of_get h1; simpa [before] using this
    have hf : webFor p = .serve i now a env n e d := by
      have : (before webFor t)[p]? = some (webFor p) := by simp [before, List.getElem?_range hp]
      rw [h1] at this; exact (Option.some.inj this).symm
    have hp' : p < 23 := by
      refine Nat.lt_of_not_le fun hle => ?_
      rcases webFor_late hle with ⟨k, h⟩ | ⟨k, h⟩ | ⟨k, h⟩ | h | h <;> rw [hf] at h <;> cases h
    rw [webFor_take (by omega) (by omega)] at h2 h5
    exact hc.answers p q env _ r ⟨i, now, a, n, e, d, out, tok, rest, by rw [webFor_early hp', hf], h2, h3, rfl, h5⟩
  · intro u h
    rcases mem _ h with h | ⟨k, h⟩ | ⟨k, h⟩ | ⟨k, h⟩ | h | h
    · exact hc.mode u h
    all_goals cases h

def webAt (t : Nat) : World Empty Nat := states webCfg (World.init plainSelf echoSrv) webFor t

theorem webAt_early {t : Nat} (ht : t ≤ 23) : webAt t = (World.init plainSelf echoSrv).run webCfg (webTrip.take t) := by
  rw [webAt, states_run]
  have := webFor_take (Nat.le_refl t) ht
  rw [List.take_of_length_le (by simp [before])] at this
  rw [this]

/-- A call waits: it has been sent but not filed. -/
theorem webAt_five : ((World.init plainSelf echoSrv).run webCfg (webTrip.take 5)).link.ht.io = .running ∧
    (match ((World.init plainSelf echoSrv).run webCfg (webTrip.take 5)).client.calls with | ⟨_, .check 0 _, _, _, _⟩ :: _ => true | ⟨_, .wait 0 _, _, _, _⟩ :: _ => true | _ => false) = true := by
  decide +kernel

theorem webAt_slots : ∀ t, t ≤ 23 → ((World.init plainSelf echoSrv).run webCfg (webTrip.take t)).slots.length ≤ 2 := by
  decide +kernel

theorem webAt_end : let w := (World.init plainSelf echoSrv).run webCfg (webTrip.take 23)
    (match w.client.cells with | some _ :: _ => true | _ => false) = true ∧ (match w.client.calls with | ⟨_, .over _, _, _, _⟩ :: _ => true | _ => false) = true := by
  decide +kernel

theorem webAt_late {t : Nat} (ht : 23 ≤ t) : (webAt t).slots.length ≤ 2 ∧ (match (webAt t).client.cells with | some _ :: _ => true | _ => false) = true ∧
    (match (webAt t).client.calls with | ⟨_, .over _, _, _, _⟩ :: _ => true | _ => false) = true := by
  induction ht with
  | refl => rw [webAt_early (Nat.le_refl _)]; exact ⟨webAt_slots 23 (Nat.le_refl _), webAt_end⟩
  | @step t ht ih =>
    show ((webAt t).step webCfg (webFor t)).slots.length ≤ 2 ∧ _
    show _ ∧ (match ((webAt t).step webCfg (webFor t)).client.cells with | some _ :: _ => true | _ => false) = true ∧
      (match ((webAt t).step webCfg (webFor t)).client.calls with | ⟨_, .over _, _, _, _⟩ :: _ => true | _ => false) = true
    generalize webAt t = w at ih
    obtain ⟨h1, h2, h3⟩ := ih
    rcases webFor_late ht with ⟨k, h⟩ | ⟨k, h⟩ | ⟨k, h⟩ | h | h <;> rw [h]
    · show (w.file webCfg k).slots.length ≤ 2 ∧ _
      simp only [World.step, World.wire, World.file]
      split
      · exact ⟨by simpa using h1, h2, h3⟩
      · exact ⟨h1, h2, h3⟩
    · exact ⟨h1, h2, h3⟩
    · exact ⟨h1, h2, h3⟩
    · have hfill : ∀ o, w.client.step (.fill 0 o) = w.client := by
        intro o
        unfold Sys.step
        split
        · rfl
        · split at h2
          · rename_i heq; simp only [heq]; rfl
          · cases h2
      simp only [World.step, World.deliver]
      split
      · split
        · simp only [hfill]; exact ⟨h1, h2, h3⟩
        · exact ⟨h1, h2, h3⟩
      · exact ⟨h1, h2, h3⟩
    · split at h3
      · rename_i heq
        have hgo : w.client.step (.go 0) = w.client := by
          unfold Sys.step
          split
          · rfl
          · simp only [heq]
            simp [Sys.go]
        have hask : Verif.Whole.asking w.client 0 = none := by
          simp [Verif.Whole.asking, heq]
        simp only [World.step, World.go, hask, hgo]
        exact ⟨h1, h2, by rw [heq]⟩
      · cases h3

/-- The hypotheses of `C116_settles_partial`, for an execution without end in which a call waits at time 5. -/
example : (∀ t, Carried webCfg (World.init plainSelf echoSrv) (before webFor t)) ∧ (∀ t, (webAt t).slots.length < 2 ^ 32) ∧
    Turns webCfg (World.init plainSelf echoSrv) webFor 0 0 ∧ (webAt 5).link.ht.io = .running ∧
    ∃ (x : CCall Empty) (k : Client.Outcome Empty → CBody Empty), (webAt 5).client.calls[0]? = some x ∧ (x.st = .check 0 k ∨ x.st = .wait 0 k) := by
  refine ⟨webFor_carried, fun t => ?_, webFor_turns, ?_, ?_⟩
  · refine Nat.lt_of_le_of_lt (m := 2) ?_ (by decide)
    by_cases ht : t ≤ 23
    · rw [webAt_early ht]; exact webAt_slots t ht
    · exact (webAt_late (by omega)).1
  · rw [webAt_early (by decide)]; exact webAt_five.1
  · rw [webAt_early (by decide)]
    have h := webAt_five.2
    split at h
    · rename_i heq; exact ⟨_, _, by rw [heq]; rfl, .inl rfl⟩
    · rename_i heq; exact ⟨_, _, by rw [heq]; rfl, .inr rfl⟩
    · cases h

end Verif.Web
