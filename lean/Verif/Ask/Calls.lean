import Verif.Ask.Model
import Verif.Near.SettleProps
import Verif.Await.ServerLifeProps

/-! Helper lemmas for C130: what the calls of the server ask, and how they go on. -/

namespace Verif.Ask

open Verif.Await Verif.Client Verif.Server

variable {D H : Type} [DblFmt D]

/-! ### Steps of the calls -/

/-- What a step that is not a call going on leaves of paths and cells. -/
theorem paths_step (s : SSys D) (op : SOp D) (hop : ∀ i, op ≠ .go i) (j : Nat) (y : SCall D) (hy : (s.step op).calls[j]? = some y) (n : Nat) (q : SReq D)
    (hq : Ev.sent n q ∈ y.path) : ∃ z : SCall D, s.calls[j]? = some z ∧ Ev.sent n q ∈ z.path := by
  unfold Sys.step at hy
  split at hy
  · exact ⟨y, hy, hq⟩
  · cases op with
    | call b =>
      dsimp only at hy
      split at hy
      · rcases Nat.lt_or_ge j s.calls.length with hj | hj
        · rw [List.getElem?_append_left hj] at hy
          exact ⟨y, hy, hq⟩
        · rw [List.getElem?_append_right hj] at hy
          have : y = ⟨b, .run b, false, true, []⟩ := by
            cases hjj : j - s.calls.length with
            | zero => rw [hjj] at hy; exact (Option.some.inj hy).symm
            | succ n => rw [hjj] at hy; cases hy
          subst this
          cases hq
      · exact ⟨y, hy, hq⟩
    | go i => exact absurd rfl (hop i)
    | fill c a => dsimp only at hy; split at hy <;> exact ⟨y, hy, hq⟩
    | drop i =>
      dsimp only at hy
      split at hy
      · rename_i x hx
        split at hy
        · rcases Await.get_set hx hy with ⟨rfl, rfl⟩ | ⟨_, hy⟩
          · exact ⟨x, hx, hq⟩
          · exact ⟨y, hy, hq⟩
        · exact ⟨y, hy, hq⟩
      · exact ⟨y, hy, hq⟩
    | change u => dsimp only at hy; split at hy <;> exact ⟨y, hy, hq⟩
    | destroy => dsimp only at hy; split at hy <;> exact ⟨y, hy, hq⟩

theorem cells_step (s : SSys D) (op : SOp D) (hop : ∀ i, op ≠ .go i) : (s.step op).cells.length = s.cells.length := by
  unfold Sys.step
  split
  · rfl
  · cases op with
    | go i => exact absurd rfl (hop i)
    | fill c a => dsimp only; split <;> simp
    | drop i => dsimp only; split <;> (try split) <;> rfl
    | _ => dsimp only; split <;> rfl

theorem cells_other (s : SSys D) (op : SOp D) (hop : ∀ i, op ≠ .go i) (n : Nat) (o : Client.Outcome D) (h : (s.step op).cells[n]? = some (some o)) :
    s.cells[n]? = some (some o) ∨ op = .fill n o := by
  unfold Sys.step at h
  split at h
  · exact .inl h
  · cases op with
    | go i => exact absurd rfl (hop i)
    | fill c a =>
      dsimp only at h
      split at h
      · rename_i hc
        rcases Await.get_set hc h with ⟨rfl, h1⟩ | ⟨_, h1⟩
        · cases h1; exact .inr rfl
        · exact .inl h1
      · exact .inl h
    | drop i => dsimp only at h; revert h; split <;> (try split) <;> exact .inl
    | call b => dsimp only at h; revert h; split <;> exact .inl
    | change u => dsimp only at h; revert h; split <;> exact .inl
    | destroy => dsimp only at h; revert h; split <;> exact .inl

/-- A call that goes on without sending. -/
theorem go_quiet (s : SSys D) (i : Nat) (h : asking s i = none ∨ ¬ (s.ub = false ∧ s.alive = true)) :
    (s.step (.go i)).cells = s.cells ∧ ∀ (j : Nat) (y : SCall D), (s.step (.go i)).calls[j]? = some y → ∀ (n : Nat) (q : SReq D), Ev.sent n q ∈ y.path →
      ∃ z : SCall D, s.calls[j]? = some z ∧ Ev.sent n q ∈ z.path := by
  unfold Sys.step
  split
  · exact ⟨rfl, fun j y hy n q hq => ⟨y, hy, hq⟩⟩
  · rename_i hub
    dsimp only
    split
    · rename_i x hx
      have hset : ∀ z : SCall D, (∀ (n : Nat) (q : SReq D), Ev.sent n q ∈ z.path → Ev.sent n q ∈ x.path) → ∀ (j : Nat) (y : SCall D),
          (s.calls.set i z)[j]? = some y → ∀ (n : Nat) (q : SReq D), Ev.sent n q ∈ y.path → ∃ z : SCall D, s.calls[j]? = some z ∧ Ev.sent n q ∈ z.path := by
        intro z hz j y hy n q hq
        rcases Await.get_set hx hy with ⟨rfl, rfl⟩ | ⟨_, hy⟩
        · exact ⟨x, hx, hz n q hq⟩
        · exact ⟨y, hy, hq⟩
      have same : ∀ (j : Nat) (y : SCall D), s.calls[j]? = some y → ∀ (n : Nat) (q : SReq D), Ev.sent n q ∈ y.path →
          ∃ z : SCall D, s.calls[j]? = some z ∧ Ev.sent n q ∈ z.path := fun j y hy n q hq => ⟨y, hy, hq⟩
      unfold Sys.go
      split
      · exact ⟨rfl, hset _ fun n q h => h⟩
      · split
        · exact ⟨rfl, hset _ fun n q h => h⟩
        · exact ⟨rfl, same⟩
      · split
        · exact ⟨rfl, hset _ fun n q h => by simpa using h⟩
        · exact ⟨rfl, same⟩
      · rename_i q k hst
        split
        · rename_i hal
          rcases h with h | h
          · simp only [asking, hx, hst] at h; cases h
          · exact absurd ⟨by simpa using hub, hal⟩ h
        · exact ⟨rfl, same⟩
      · split
        · exact ⟨rfl, hset _ fun n q h => by simpa using h⟩
        · exact ⟨rfl, hset _ fun n q h => h⟩
      · split
        · exact ⟨rfl, hset _ fun n q h => by simpa using h⟩
        · exact ⟨rfl, same⟩
      · exact ⟨rfl, same⟩
    · exact ⟨rfl, fun j y hy n q hq => ⟨y, hy, hq⟩⟩

/-- A call that sends its request. -/
theorem go_asks (s : SSys D) (i : Nat) (q : SReq D) (h : asking s i = some q) (hs : s.ub = false ∧ s.alive = true) :
    (s.step (.go i)).cells = s.cells ++ [none] ∧ ∀ (j : Nat) (y : SCall D), (s.step (.go i)).calls[j]? = some y → ∀ (n : Nat) (q' : SReq D), Ev.sent n q' ∈ y.path →
      (n = s.cells.length ∧ q' = q) ∨ ∃ z : SCall D, s.calls[j]? = some z ∧ Ev.sent n q' ∈ z.path := by
  unfold asking at h
  split at h
  · rename_i x hx
    split at h
    · rename_i q0 k hst
      cases h
      have : s.step (.go i) = { s with cells := s.cells ++ [none], calls := s.calls.set i { x with st := .check s.cells.length k, path := x.path ++ [.sent s.cells.length q] } } := by
        unfold Sys.step
        rw [if_neg (by rw [hs.1]; decide)]
        simp only [hx, Sys.go, hst, hs.2, if_true]
      rw [this]
      refine ⟨rfl, fun j y hy n q' hq => ?_⟩
      rcases Await.get_set hx hy with ⟨rfl, rfl⟩ | ⟨_, hy⟩
      · rcases List.mem_append.1 hq with hq | hq
        · exact .inr ⟨x, hx, hq⟩
        · cases List.mem_singleton.1 hq; exact .inl ⟨rfl, rfl⟩
      · exact .inr ⟨y, hy, hq⟩
    · cases h
  · cases h

/-- All requests the body sends satisfy `P`. -/
def AsksOnly (P : SReq D → Prop) : SBody D → Prop
  | .ret _ => True
  | .arg k => AsksOnly P k
  | .own _ k => ∀ s, AsksOnly P (k s)
  | .ask q k => P q ∧ ∀ o, AsksOnly P (k o)

theorem AsksOnly.mono {P Q : SReq D → Prop} (h : ∀ q, P q → Q q) {b : SBody D} : AsksOnly P b → AsksOnly Q b := by
  induction b with
  | ret r => exact id
  | arg k ih => exact ih
  | own u k ih => exact fun hk s => ih s (hk s)
  | ask q k ih => exact fun hk => ⟨h q hk.1, fun o => ih o (hk.2 o)⟩

theorem asks_closed (P : SReq D → Prop) : Closed (AsksOnly P) fun k => ∀ o, AsksOnly P (k o) :=
  ⟨fun _ h => h, fun _ _ s h => h s, fun _ _ h => h.2, fun _ a h => h a⟩

/-! ### What a call asks -/

/-- The sbody sends this request at most once. -/
def AsksOnce (q0 : SReq D) : SBody D → Prop
  | .ret _ => True
  | .arg k => AsksOnce q0 k
  | .own _ k => ∀ s, AsksOnce q0 (k s)
  | .ask q k => q = q0 ∧ ∀ o, AsksOnly (fun _ => False) (k o)

theorem only_smode (P : SReq D → Prop) (c : Bool) (k : Bool → SBody D) (h : ∀ b, AsksOnly P (k b)) : AsksOnly P (smode c k) := by
  unfold smode
  split
  · exact fun s => h _
  · exact h _

theorem only_sgive {T : Type} (P : SReq D → Prop) (f : T → SVal D) (t : Option T) : AsksOnly P (sgive f t) := by cases t <;> trivial

theorem only_screated (P : SReq D → Prop) (k : Tasks.Kind) (e : Except Bytes (Tasks.Task × Option (JVal D))) : AsksOnly P (screated k e) := by
  cases e with
  | error _ => trivial
  | ok p => exact fun _ => trivial

theorem once_send {q0 q : SReq D} {k : Outcome D → SBody D} (hq : q = q0) (h : ∀ o, AsksOnly (fun _ => False) (k o)) : AsksOnce q0 (send q k) := by
  intro s
  dsimp only
  split
  · exact ⟨hq, h⟩
  · trivial

theorem once_gate {q0 : SReq D} (c : SSelf D → Bool) (no : SOut D) (k : SBody D) (h : AsksOnce q0 k) : AsksOnce q0 (.own id fun s => if c s then k else .ret no) := by
  intro s
  dsimp only
  split
  · exact h
  · trivial

theorem once_fitting {q0 : SReq D} (v : JVal D) (k : SBody D) (h : AsksOnce q0 k) : AsksOnce q0 (fitting v k) := by
  intro s
  dsimp only
  split
  · trivial
  · exact h

theorem once_sbody (api : SApi D) : AsksOnce (enquiry api) (sbody api) := by
  cases api with
  | roots => exact once_gate _ _ _ (once_gate (fun s => s.caps.roots.isSome) _ _ (once_send rfl fun o => only_smode _ _ _ fun b => only_sgive _ _ _))
  | sample p id => exact once_gate _ _ _ (once_send rfl fun o => trivial)
  | sampleTask p ttl =>
    exact once_gate _ _ _ (once_gate (fun s => samplesTasks s.caps) _ _ (once_send (by cases ttl <;> rfl) fun o => only_smode _ _ _ fun b => only_screated _ _ _))
  | elicit r =>
    exact once_gate _ _ _ (once_gate (fun s => s.caps.elicitation.isSome) _ _ (once_fitting _ _ (once_send rfl fun o => only_smode _ _ _ fun b => only_sgive _ _ _)))
  | elicitTask r ttl =>
    exact once_gate _ _ _ (once_gate (fun s => elicitsTasks s.caps) _ _ (once_fitting _ _ (once_send (by cases ttl <;> rfl) fun o => only_smode _ _ _ fun b => only_screated _ _ _)))
  | ping =>
    refine once_gate _ _ _ (once_send rfl fun o => only_smode _ _ _ fun b => ?_)
    split <;> trivial
  | callToolTask name args ttl => exact once_send (by cases ttl <;> rfl) fun o => only_smode _ _ _ fun b => only_screated _ _ _
  | getTask id => exact once_send rfl fun o => only_smode _ _ _ fun b => only_sgive _ _ _
  | cancelTask id => exact once_send rfl fun o => only_smode _ _ _ fun b => only_sgive _ _ _
  | taskResult id =>
    refine once_send rfl fun o => ?_
    try dsimp only
    split
    · exact fun _ => fun _ => only_sgive _ _ _
    · exact only_sgive _ _ _
  | listTasks => exact once_send rfl fun o => only_smode _ _ _ fun b => only_sgive _ _ _
  | listTasksPaged c l => exact once_send (by rw [pageParams_eq]; rfl) fun o => only_smode _ _ _ fun b => only_sgive _ _ _

theorem AsksOnce.only {q0 : SReq D} {b : SBody D} : AsksOnce q0 b → AsksOnly (· = q0) b := by
  induction b with
  | ret r => exact fun _ => trivial
  | arg k ih => exact ih
  | own u k ih => exact fun hb s => ih s (hb s)
  | ask q k ih => exact fun hb => ⟨hb.1, fun o => (hb.2 o).mono fun _ h => h.elim⟩

theorem ends_none {b : SBody D} : ∀ {evs : List (Ev (SSelf D) (SReq D) (Client.Outcome D))} {r : SOut D}, Ends b evs r → AsksOnly (fun _ => False) b → ∀ n q, Ev.sent n q ∉ evs := by
  induction b with
  | ret r' => rintro evs r ⟨rfl, -⟩ _ n q h; cases h
  | arg k ih => exact fun h h' => ih h h'
  | own u k ih =>
    rintro evs r ⟨s, rest, rfl, h⟩ h' n q hm
    rcases List.mem_cons.1 hm with hm | hm
    · cases hm
    · exact ih s h (h' s) n q hm
  | ask q k ih => exact fun _ h' => absurd h'.1 id

/-- What a sbody that asks once has sent when it ends. -/
theorem ends_once {q0 : SReq D} {b : SBody D} : ∀ {evs : List (Ev (SSelf D) (SReq D) (Client.Outcome D))} {r : SOut D}, Ends b evs r → AsksOnce q0 b →
    (∀ n q, Ev.sent n q ∈ evs → q = q0) ∧ ∀ n n' q q', Ev.sent n q ∈ evs → Ev.sent n' q' ∈ evs → n = n' := by
  induction b with
  | ret r' => rintro evs r ⟨rfl, -⟩ _; exact ⟨fun n q h => (nomatch h), fun n n' q q' h => (nomatch h)⟩
  | arg k ih => exact fun h h' => ih h h'
  | own u k ih =>
    rintro evs r ⟨s, rest, rfl, h⟩ h'
    obtain ⟨h1, h2⟩ := ih s h (h' s)
    have drop : ∀ n q, Ev.sent n q ∈ (Ev.saw s :: rest : List (Ev (SSelf D) (SReq D) (Client.Outcome D))) → Ev.sent n q ∈ rest := by
      intro n q hm
      rcases List.mem_cons.1 hm with hm | hm
      · cases hm
      · exact hm
    exact ⟨fun n q hm => h1 n q (drop n q hm), fun n n' q q' hm hm' => h2 n n' q q' (drop n q hm) (drop n' q' hm')⟩
  | ask q k ih =>
    rintro evs r ⟨c, a, rest, rfl, h⟩ ⟨rfl, h'⟩
    have only : ∀ n q', Ev.sent n q' ∈ (Ev.sent c q :: Ev.got c a :: rest : List (Ev (SSelf D) (SReq D) (Client.Outcome D))) → n = c ∧ q' = q := by
      intro n q' hm
      rcases List.mem_cons.1 hm with hm | hm
      · cases hm; exact ⟨rfl, rfl⟩
      · rcases List.mem_cons.1 hm with hm | hm
        · cases hm
        · exact absurd hm (ends_none h (h' a) n q')
    exact ⟨fun n q' hm => (only n q' hm).2, fun n n' q' q'' hm hm' => (only n q' hm).1.trans (only n' q'' hm').1.symm⟩

/-- Every sbody can end. -/
theorem ends_somehow (s0 : SSelf D) (b : SBody D) : ∃ evs r, Ends b evs r := by
  induction b with
  | ret r => exact ⟨[], r, rfl, rfl⟩
  | arg k ih => exact ih
  | own u k ih => obtain ⟨evs, r, h⟩ := ih s0; exact ⟨_, r, s0, evs, rfl, h⟩
  | ask q k ih => obtain ⟨evs, r, h⟩ := ih .threw; exact ⟨_, r, 0, .threw, evs, rfl, h⟩

theorem tail_somehow (s0 : SSelf D) {x : SCall D} (h : Tail x.prog x.path x.st) : ∃ more r, Ends x.prog (x.path ++ more) r := by
  cases hs : x.st with
  | run b => rw [hs] at h; obtain ⟨evs, r, h'⟩ := ends_somehow s0 b; exact ⟨evs, r, h evs r h'⟩
  | check c k => rw [hs] at h; obtain ⟨evs, r, h'⟩ := ends_somehow s0 (k .threw); exact ⟨_, r, h .threw evs r h'⟩
  | wait c k => rw [hs] at h; obtain ⟨evs, r, h'⟩ := ends_somehow s0 (k .threw); exact ⟨_, r, h .threw evs r h'⟩
  | over r => rw [hs] at h; exact ⟨[], r, by rw [List.append_nil]; exact h⟩

theorem mem_sentOf {n : Nat} : ∀ {l : List (Ev (SSelf D) (SReq D) (Client.Outcome D))}, n ∈ sentOf l ↔ ∃ q, Ev.sent n q ∈ l := by
  intro l
  induction l with
  | nil => exact ⟨fun h => (nomatch h), fun ⟨q, h⟩ => (nomatch h)⟩
  | cons e l ih =>
    cases e with
    | sent c q =>
      simp only [sentOf, List.mem_cons, ih]
      constructor
      · rintro (rfl | ⟨q', h⟩)
        · exact ⟨q, .inl rfl⟩
        · exact ⟨q', .inr h⟩
      · rintro ⟨q', h | h⟩
        · cases h; exact .inl rfl
        · exact .inr ⟨q', h⟩
    | saw s => simp [sentOf, ih]
    | got c a => simp [sentOf, ih]

/-- A call of the client sends its own request, once. -/
theorem call_asks (s0 : SSelf D) (cops : List (SOp D)) {i : Nat} {x : SCall D} {api : SApi D} (hx : ((Sys.init s0).run cops).calls[i]? = some x) (hp : x.prog = sbody api) :
    (∀ n q, Ev.sent n q ∈ x.path → q = enquiry api) ∧ ∀ n n', n ∈ sentOf x.path → n' ∈ sentOf x.path → n = n' := by
  obtain ⟨more, r, h⟩ := tail_somehow s0 ((inv_run s0 cops).tr i x hx).tail
  rw [hp] at h
  obtain ⟨h1, h2⟩ := ends_once h (once_sbody api)
  refine ⟨fun n q hm => h1 n q (List.mem_append_left _ hm), fun n n' hn hn' => ?_⟩
  obtain ⟨q, hq⟩ := mem_sentOf.1 hn
  obtain ⟨q', hq'⟩ := mem_sentOf.1 hn'
  exact h2 n n' q q' (List.mem_append_left _ hq) (List.mem_append_left _ hq')

/-- What a call has sent it has sent. -/
theorem sent_stays (s : SSys D) (op : SOp D) {i : Nat} {x : SCall D} (hx : s.calls[i]? = some x) {n : Nat} {q : SReq D} (hq : Ev.sent n q ∈ x.path) :
    ∃ y : SCall D, (s.step op).calls[i]? = some y ∧ Ev.sent n q ∈ y.path := by
  rcases step_call s op i x hx with h | ⟨-, -, h⟩ | ⟨-, -, h⟩
  · exact ⟨x, h, hq⟩
  · exact ⟨_, h, hq⟩
  · rw [h]
    have keep : ∀ z : SCall D, Ev.sent n q ∈ z.path → ∃ y : SCall D, (s.calls.set i z)[i]? = some y ∧ Ev.sent n q ∈ y.path :=
      fun z hz => ⟨z, Await.set_get hx _, hz⟩
    unfold Sys.go
    split
    · exact keep _ hq
    · split
      · exact keep _ hq
      · exact ⟨x, hx, hq⟩
    · split
      · exact keep _ (List.mem_append_left _ hq)
      · exact ⟨x, hx, hq⟩
    · split
      · exact keep _ (List.mem_append_left _ hq)
      · exact ⟨x, hx, hq⟩
    · split
      · exact keep _ (List.mem_append_left _ hq)
      · exact keep _ hq
    · split
      · exact keep _ (List.mem_append_left _ hq)
      · exact ⟨x, hx, hq⟩
    · exact ⟨x, hx, hq⟩

/-- A call that sends its request has sent it. -/
theorem go_sends (s : SSys D) (i : Nat) (q : SReq D) (h : asking s i = some q) (hs : s.ub = false ∧ s.alive = true) :
    ∃ y : SCall D, (s.step (.go i)).calls[i]? = some y ∧ Ev.sent s.cells.length q ∈ y.path := by
  unfold asking at h
  split at h
  · rename_i x hx
    split at h
    · rename_i q0 k hst
      cases h
      have : s.step (.go i) = { s with cells := s.cells ++ [none], calls := s.calls.set i { x with st := .check s.cells.length k, path := x.path ++ [.sent s.cells.length q] } } := by
        unfold Sys.step
        rw [if_neg (by rw [hs.1]; decide)]
        simp only [hx, Sys.go, hst, hs.2, if_true]
      rw [this]
      exact ⟨_, Await.set_get hx _, by simp⟩
    · cases h
  · cases h

end Verif.Ask
