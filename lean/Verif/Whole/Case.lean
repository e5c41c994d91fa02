import Verif.Whole.SettleProps
import Verif.Stdio.DuplexCaseProps

/-! Concrete executions that meet the hypotheses of the theorems C115. -/

namespace Verif.Whole

open Verif.Await Verif.Client Verif.Server Verif.Duplex Verif.Stdio
open Verif.Serve (Prog)

/-! ### A checker for values that the wire carries -/

mutual
/-- The wire format carries the value, and no member in it is named `k`. -/
def fine (k : Bytes) : JVal Empty → Bool
  | .int i => decide (Int64OK i)
  | .arr l => fineList k l
  | .obj m => fineFields k m && decide (m.map Prod.fst).Nodup
  | _ => true
def fineList (k : Bytes) : List (JVal Empty) → Bool
  | [] => true
  | v :: r => fine k v && fineList k r
def fineFields (k : Bytes) : List (Bytes × JVal Empty) → Bool
  | [] => true
  | (n, v) :: r => n.all (fun c => c != '"' && c != '\\') && n != k && fine k v && fineFields k r
end

mutual
theorem fine_sound (k : Bytes) : ∀ v : JVal Empty, fine k v = true → v.Wire ∧ ¬ v.HasKey k
  | .null, _ => ⟨trivial, id⟩
  | .bool _, _ => ⟨trivial, id⟩
  | .int i, h => ⟨(show Int64OK i from of_decide_eq_true h), id⟩
  | .dbl d, _ => nomatch d
  | .str _, _ => ⟨trivial, id⟩
  | .arr l, h => fineList_sound k l h
  | .obj m, h => by
    simp only [fine, Bool.and_eq_true, decide_eq_true_eq] at h
    obtain ⟨h1, h2⟩ := fineFields_sound k m h.1
    exact ⟨⟨h1, h.2⟩, h2⟩
theorem fineList_sound (k : Bytes) : ∀ l : List (JVal Empty), fineList k l = true → WireList l ∧ ¬ HasKeyList k l
  | [], _ => ⟨trivial, id⟩
  | v :: r, h => by
    simp only [fineList, Bool.and_eq_true] at h
    obtain ⟨h1, h2⟩ := fine_sound k v h.1
    obtain ⟨h3, h4⟩ := fineList_sound k r h.2
    exact ⟨⟨h1, h3⟩, fun h => h.elim h2 h4⟩
theorem fineFields_sound (k : Bytes) : ∀ m : List (Bytes × JVal Empty), fineFields k m = true → WireFields m ∧ ¬ HasKeyFields k m
  | [], _ => ⟨trivial, id⟩
  | (n, v) :: r, h => by
    simp only [fineFields, Bool.and_eq_true, List.all_eq_true, bne_iff_ne, ne_eq] at h
    obtain ⟨⟨⟨h0, hk⟩, h1⟩, h2⟩ := h
    obtain ⟨h3, h4⟩ := fine_sound k v h1
    obtain ⟨h5, h6⟩ := fineFields_sound k r h2
    exact ⟨⟨fun c hc => h0 c hc, h3, h5⟩, fun h => h.elim hk fun h => h.elim h4 h6⟩
end

/-- The answer has a result that the wire carries. -/
def fineOut : Out Empty → Bool
  | .answer r => match r.result, r.error with | some v, none => fine (lit "error") v | _, _ => false
  | _ => false

theorem fineOut_sound {o : Out Empty} (h : fineOut o = true) {r : Response Empty} (hr : o = .answer r) : PlainAnswer (.resp r) := by
  subst hr
  obtain ⟨id, res, err⟩ := r
  cases res with
  | none => cases h
  | some v =>
    cases err with
    | some e => cases h
    | none =>
      refine ⟨fun v' hv => ?_, fun v' hv => (by cases hv), fun h => (by cases h), .inl (by simp)⟩
      cases hv
      exact fine_sound _ _ h

/-! ### A call of a tool -/

def quietCfg : Cfg Empty := ⟨echo, fun _ => 1000000⟩

def toolArgs : JVal Empty := .obj [(lit "x", .int 7)]

def toolTrip : List (Op Empty Nat) :=
  [.call (.callTool (lit "t") toolArgs), .go 0, .go 0, .wire false (.file 0 0), .wire false (.push 0), .wire false .dequeue, .wire false (.write 999),
   .wire false .finish, .wire true (.read 4000), .wire true .decode, .serve echoEnv, .wire true .dequeue, .wire true (.write 999), .wire true .finish,
   .wire false (.read 4000), .wire false .decode, .deliver 0, .go 0, .go 0, .go 0]

theorem toolTrip_carried : Carried quietCfg (World.init plainSelf echoSrv) toolTrip := by
  refine ⟨echo_plain, ?_, ?_, ?_, ?_⟩
  · intro api h v hv
    simp only [toolTrip, List.mem_cons, List.not_mem_nil, or_false, reduceCtorEq, false_or] at h
    cases h
    cases hv
    exact (fine_sound (lit "error") _ (by decide +kernel)).1
  · intro y op h
    simp only [toolTrip, List.mem_cons, List.not_mem_nil, or_false, reduceCtorEq, false_or] at h
    rcases h with h | h | h | h | h | h | h | h | h | h | h | h <;> cases h <;> trivial
  · rintro p q env σ r ⟨h1, ⟨j, hj, rfl⟩, h3, -, h5⟩
    have hp : p = 10 ∧ env = echoEnv := by
      have hl : p < 20 := lt_of_get h1
      have : ∀ n, n < 20 → toolTrip[n]? = some (.serve env) → n = 10 ∧ env = echoEnv := by
        intro n hn he
        match n, hn with
        | 10, _ => cases he; exact ⟨rfl, rfl⟩
        | 0, _ | 1, _ | 2, _ | 3, _ | 4, _ | 5, _ | 6, _ | 7, _ | 8, _ | 9, _ | 11, _ | 12, _ | 13, _ | 14, _ | 15, _ | 16, _ | 17, _ | 18, _ | 19, _ => cases he
      exact this p hl h1
    obtain ⟨rfl, rfl⟩ := hp
    have key : (match ((World.init plainSelf echoSrv).run quietCfg (toolTrip.take 10)).pair.b.job with
      | some j => fineOut (dispatch echoEnv ((World.init plainSelf echoSrv).run quietCfg (toolTrip.take 10)).srv j.req).1
      | none => true) = true := by decide +kernel
    rw [hj, h3] at key
    exact fineOut_sound key h5
  · intro u h
    simp [toolTrip] at h

theorem own_empty : OwnTexts [RpcId.str []] := by
  refine ⟨?_, ?_, by decide⟩
  · intro i j a b ha hb _ hne
    have hi : i < 1 := (List.getElem?_eq_some_iff.1 ha).1
    have hj : j < 1 := (List.getElem?_eq_some_iff.1 hb).1
    omega
  · intro i hi c h
    simp only [List.mem_singleton] at hi
    subst hi
    cases h

/-- A call that is over, with the value of the handler of the server: the case of `C115_result_partial`, `C115_tool_partial` and `C115_once_partial`. -/
example : Carried quietCfg (World.init plainSelf echoSrv) toolTrip ∧
    let w := (World.init plainSelf echoSrv).run quietCfg toolTrip
    OwnTexts (w.pair.a.given.map (·.id)) ∧ w.srv.runs.length = 1 ∧
    (match w.client.calls with
      | [⟨_, .over (some (.json v)), _, _, _⟩] => match v.get? (lit "structuredContent") with | some s => (s.get? (lit "x")) == some (.int 7) | none => false
      | _ => false) = true := by
  refine ⟨toolTrip_carried, ?_⟩
  intro w
  have h : w.pair.a.given.map (·.id) = [.str []] ∧ w.srv.runs.length = 1 ∧ (match w.client.calls with
      | [⟨_, .over (some (.json v)), _, _, _⟩] => match v.get? (lit "structuredContent") with | some s => (s.get? (lit "x")) == some (.int 7) | none => false
      | _ => false) = true := by decide +kernel
  exact ⟨by rw [h.1]; exact own_empty, h.2⟩

/-- The same trip for `C115_calls_partial`: one request, one use of a tool. -/
example : Carried quietCfg (World.init plainSelf echoSrv) toolTrip ∧ (∀ q, Alone (quietCfg.handler q)) ∧
    ((World.init plainSelf echoSrv).run quietCfg toolTrip).client.cells.length = 1 ∧ ((World.init plainSelf echoSrv).run quietCfg toolTrip).srv.runs.length = 1 :=
  ⟨toolTrip_carried, fun q => echo_alone q, by decide +kernel, by decide +kernel⟩

/-! ### An execution without end -/

def pingStart : List (Op Empty Nat) := [.call .ping, .go 0, .wire false (.file 0 0)]

/-- One turn after the other. -/
def turn : Nat → Op Empty Nat
  | 0 => .wire false (.push 0)
  | 1 => .wire false .dequeue
  | 2 => .wire false (.write 0)
  | 3 => .wire false .finish
  | 4 => .wire false (.read 0)
  | 5 => .wire false .decode
  | 6 => .wire false (.work false)
  | 7 => .wire true (.push 0)
  | 8 => .wire true .dequeue
  | 9 => .wire true (.write 0)
  | 10 => .wire true .finish
  | 11 => .wire true (.read 0)
  | 12 => .wire true .decode
  | 13 => .serve echoEnv
  | 14 => .deliver 0
  | _ => .go 0

def pingFor (t : Nat) : Op Empty Nat := if t < 3 then pingStart.getD t (.go 0) else turn ((t - 3) % 16)

theorem pingFor_turns : WTurns pingFor 0 0 := by
  have key : ∀ r t, r < 16 → ∃ u, t ≤ u ∧ pingFor u = turn r := by
    intro r t hr
    refine ⟨3 + (16 * t + r), by omega, ?_⟩
    unfold pingFor
    rw [if_neg (by omega), show (3 + (16 * t + r) - 3) % 16 = r by omega]
  refine ⟨fun y t => ?_, fun y t => ?_, fun y t => ?_, fun y t => ?_, fun y t => ?_, fun y t => ?_, fun t => ?_, fun t => ?_, fun t => ?_, fun t => ?_⟩
  · cases y
    · exact key 0 t (by decide)
    · exact key 7 t (by decide)
  · cases y
    · exact key 1 t (by decide)
    · exact key 8 t (by decide)
  · cases y
    · obtain ⟨u, h⟩ := key 2 t (by decide); exact ⟨u, 0, h⟩
    · obtain ⟨u, h⟩ := key 9 t (by decide); exact ⟨u, 0, h⟩
  · cases y
    · exact key 3 t (by decide)
    · exact key 10 t (by decide)
  · cases y
    · obtain ⟨u, h⟩ := key 4 t (by decide); exact ⟨u, 0, h⟩
    · obtain ⟨u, h⟩ := key 11 t (by decide); exact ⟨u, 0, h⟩
  · cases y
    · exact key 5 t (by decide)
    · exact key 12 t (by decide)
  · obtain ⟨u, h⟩ := key 6 t (by decide); exact ⟨u, false, h⟩
  · obtain ⟨u, h⟩ := key 13 t (by decide); exact ⟨u, echoEnv, h⟩
  · exact key 14 t (by decide)
  · exact key 15 t (by decide)

/-- What each step of the execution can be. -/
theorem pingFor_kind (t : Nat) : (t = 0 ∧ pingFor t = .call .ping) ∨ (t = 2 ∧ pingFor t = .wire false (.file 0 0)) ∨
    (∃ y op, pingFor t = .wire y op ∧ Internal op) ∨ (3 ≤ t ∧ pingFor t = .serve echoEnv) ∨ pingFor t = .deliver 0 ∨ pingFor t = .go 0 := by
  by_cases h : t < 3
  · match t, h with
    | 0, _ => exact .inl ⟨rfl, rfl⟩
    | 1, _ => exact .inr (.inr (.inr (.inr (.inr rfl))))
    | 2, _ => exact .inr (.inl ⟨rfl, rfl⟩)
  · have he : pingFor t = turn ((t - 3) % 16) := by unfold pingFor; rw [if_neg h]
    rw [he]
    have hl : (t - 3) % 16 < 16 := Nat.mod_lt _ (by decide)
    generalize (t - 3) % 16 = r at hl
    right; right
    match r, hl with
    | 0, _ => exact .inl ⟨_, _, rfl, .push 0⟩
    | 1, _ => exact .inl ⟨_, _, rfl, .dequeue⟩
    | 2, _ => exact .inl ⟨_, _, rfl, .write 0⟩
    | 3, _ => exact .inl ⟨_, _, rfl, .finish⟩
    | 4, _ => exact .inl ⟨_, _, rfl, .read 0⟩
    | 5, _ => exact .inl ⟨_, _, rfl, .decode⟩
    | 6, _ => exact .inl ⟨_, _, rfl, .work _⟩
    | 7, _ => exact .inl ⟨_, _, rfl, .push 0⟩
    | 8, _ => exact .inl ⟨_, _, rfl, .dequeue⟩
    | 9, _ => exact .inl ⟨_, _, rfl, .write 0⟩
    | 10, _ => exact .inl ⟨_, _, rfl, .finish⟩
    | 11, _ => exact .inl ⟨_, _, rfl, .read 0⟩
    | 12, _ => exact .inl ⟨_, _, rfl, .decode⟩
    | 13, _ => exact .inr (.inl ⟨by omega, rfl⟩)
    | 14, _ => exact .inr (.inr (.inl rfl))
    | 15, _ => exact .inr (.inr (.inr rfl))
    | n + 16, h => exact absurd h (by omega)

theorem pingFor_call (t : Nat) (api : Api Empty) (ht : 3 ≤ t) : pingFor t ≠ .call api := by
  intro h
  rcases pingFor_kind t with ⟨h0, -⟩ | ⟨h0, -⟩ | ⟨y, op, h1, -⟩ | ⟨-, h1⟩ | h1 | h1
  · omega
  · omega
  all_goals rw [h] at h1; cases h1

theorem pingFor_wire (t : Nat) (y : Bool) (op : EndOp Empty) (ht : 3 ≤ t) (h : pingFor t = .wire y op) : Internal op := by
  rcases pingFor_kind t with ⟨h0, -⟩ | ⟨h0, -⟩ | ⟨y', op', h1, h2⟩ | ⟨-, h1⟩ | h1 | h1
  · omega
  · omega
  · rw [h] at h1; cases h1; exact h2
  all_goals rw [h] at h1; cases h1

def pingAt (t : Nat) : World Empty Nat := states quietCfg (World.init plainSelf echoSrv) pingFor t

/-- The call waits: its request is filed. -/
theorem pingAt_three : (pingAt 3).pair.a.given.map (·.id) = [.str []] ∧ (pingAt 3).pair.a.given.map (·.method) = [lit "ping"] ∧ (pingAt 3).pair.b.given.length = 0 ∧
    (pingAt 3).pair.a.p.checked.length = 0 ∧ (pingAt 3).pair.b.p.checked.length = 0 ∧ (pingAt 3).dead = false ∧
    (match (pingAt 3).client.calls with | [⟨_, .check 0 _, _, _, _⟩] => true | _ => false) = true := by decide +kernel

theorem pingAt_call : ∃ (x : CCall Empty) (k : Client.Outcome Empty → CBody Empty), (pingAt 3).client.calls = [x] ∧ x.st = .check 0 k := by
  have h := pingAt_three.2.2.2.2.2.2
  split at h
  · rename_i heq; exact ⟨_, _, heq, rfl⟩
  · cases h

theorem pingAt_sent (i : Nat) (x : CCall Empty) (hx : (pingAt 3).client.calls[i]? = some x) (b : CBody Empty) : x.st ≠ .run b := by
  obtain ⟨y, k, h1, h2⟩ := pingAt_call
  rw [h1] at hx
  cases i with
  | zero => cases hx; rw [h2]; exact fun h => nomatch h
  | succ i => cases hx

theorem pingAt_asked {t : Nat} (ht : 3 ≤ t) (hc : Carried quietCfg (World.init plainSelf echoSrv) (before pingFor t)) {j : Duplex.Job Empty}
    (hj : (pingAt t).pair.b.job = some j) : j.req.method = lit "ping" := by
  have hw : pingAt t = (World.init plainSelf echoSrv).run quietCfg (before pingFor t) := states_run ..
  have hg : Good (pingAt t).pair := by rw [hw]; exact good_world quietCfg plainSelf echoSrv _
  have hpl : PlainPair (pingAt t).pair := by rw [hw]; exact plain_world _ _ _ _ hc
  have hq : j.req ∈ requestsIn ((pingAt t).pair.get true).taken := by
    rw [(hg true).jobs]
    refine List.mem_append_right _ ?_
    show j.req ∈ ((pingAt t).pair.b.job.map (·.req)).toList
    rw [hj]; exact List.mem_cons_self ..
  obtain ⟨n, k, dl, q0, -, h2, -, h4, -⟩ := taken_request hg hpl hq
  rw [h4]
  have hsame : (pingAt t).pair.a.given = (pingAt 3).pair.a.given :=
    given_after (c := quietCfg) (s0 := plainSelf) (srv := echoSrv) (f := pingFor) (y := false) (fun q => echo_alone q) pingFor_call pingAt_sent pingFor_wire ht
  have hmem : q0 ∈ (pingAt 3).pair.a.given := by rw [← hsame]; exact List.mem_of_getElem? h2
  have : q0.method ∈ (pingAt 3).pair.a.given.map (·.method) := List.mem_map_of_mem hmem
  rw [pingAt_three.2.1] at this
  exact List.mem_singleton.1 this

theorem ping_answer (env : Env Empty Nat) (s : Srv Empty Nat) {q : Request Empty} (hq : q.method = lit "ping") :
    (dispatch env s q).1 = .answer ⟨q.id, some (.obj []), none⟩ := by
  obtain ⟨id, m, ps⟩ := q
  cases hq
  rfl

theorem pingFor_carried (t : Nat) : Carried quietCfg (World.init plainSelf echoSrv) (before pingFor t) := by
  induction t using Nat.strongRecOn with
  | _ t ih =>
    have mem : ∀ op, op ∈ before pingFor t → ∃ u, pingFor u = op := fun op h => by
      obtain ⟨u, -, hu⟩ := List.mem_map.1 h; exact ⟨u, hu⟩
    refine ⟨echo_plain, ?_, ?_, ?_, ?_⟩
    · intro api h v hv
      obtain ⟨u, hu⟩ := mem _ h
      rcases pingFor_kind u with ⟨-, h1⟩ | ⟨-, h1⟩ | ⟨y, op, h1, -⟩ | ⟨-, h1⟩ | h1 | h1 <;> rw [hu] at h1 <;> cases h1
      cases hv
    · intro y op h
      obtain ⟨u, hu⟩ := mem _ h
      rcases pingFor_kind u with ⟨-, h1⟩ | ⟨-, h1⟩ | ⟨y, op, h1, h2⟩ | ⟨-, h1⟩ | h1 | h1 <;> rw [hu] at h1 <;> cases h1
      · trivial
      · cases h2 <;> trivial
    · intro p q env σ r h
      obtain ⟨h1, h2, ⟨j, hj, rfl⟩, -, -, h6⟩ := dispatched_before h
      have hp : 3 ≤ p := by
        rcases pingFor_kind p with ⟨-, h3⟩ | ⟨-, h3⟩ | ⟨y, op, h3, -⟩ | ⟨h3, -⟩ | h3 | h3
        · rw [h2] at h3; cases h3
        · rw [h2] at h3; cases h3
        · rw [h2] at h3; cases h3
        · exact h3
        · rw [h2] at h3; cases h3
        · rw [h2] at h3; cases h3
      rw [ping_answer env σ (pingAt_asked hp (ih p h1) hj)] at h6
      exact fineOut_sound (o := .answer ⟨j.req.id, some (.obj []), none⟩) rfl h6
    · intro u h
      obtain ⟨v, hv⟩ := mem _ h
      rcases pingFor_kind v with ⟨-, h1⟩ | ⟨-, h1⟩ | ⟨y, op, h1, h2⟩ | ⟨-, h1⟩ | h1 | h1 <;> rw [hv] at h1 <;> cases h1

theorem pingFor_calming : Calming quietCfg (World.init plainSelf echoSrv) pingFor 3 := by
  refine ⟨fun t api ht => pingFor_call t api ht, pingAt_sent, fun t y op ht h => pingFor_wire t y op ht h, ?_, pingAt_three.2.2.2.2.2.1, ?_⟩
  · intro t env j ht _ hj
    exact ⟨_, ping_answer env _ (pingAt_asked ht (pingFor_carried t) hj)⟩
  · intro y
    cases y
    · exact List.length_eq_zero_iff.1 pingAt_three.2.2.2.1
    · exact List.length_eq_zero_iff.1 pingAt_three.2.2.2.2.1

/-- The hypotheses of `C115_settles_partial`, for an execution without end in which a call waits at time 3. -/
example : (∀ t, Carried quietCfg (World.init plainSelf echoSrv) (before pingFor t)) ∧ (∀ q, Alone (quietCfg.handler q)) ∧
    (∀ y, OwnTexts (((pingAt 3).pair.get y).given.map (·.id))) ∧ Calming quietCfg (World.init plainSelf echoSrv) pingFor 3 ∧ WTurns pingFor 0 0 ∧
    ∃ (x : CCall Empty) (k : Client.Outcome Empty → CBody Empty), (pingAt 3).client.calls[0]? = some x ∧ x.st = .check 0 k := by
  refine ⟨pingFor_carried, fun q => echo_alone q, fun y => ?_, pingFor_calming, pingFor_turns, ?_⟩
  · cases y
    · show OwnTexts ((pingAt 3).pair.a.given.map (·.id))
      rw [pingAt_three.1]; exact own_empty
    · show OwnTexts ((pingAt 3).pair.b.given.map (·.id))
      rw [List.length_eq_zero_iff.1 pingAt_three.2.2.1]; exact own_none
  · obtain ⟨x, k, h1, h2⟩ := pingAt_call
    exact ⟨x, k, by rw [h1]; rfl, h2⟩

end Verif.Whole
