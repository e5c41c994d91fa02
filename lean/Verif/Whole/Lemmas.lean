import Verif.Whole.Model
import Verif.Stdio.DuplexSettleProps
import Verif.Await.Props

/-! Helper lemmas for C115: what a step of the client, the transports and the server together does to each of them. -/

namespace Verif.Whole

open Verif.Await Verif.Client Verif.Server Verif.Duplex Verif.Stdio
open Verif.Serve (Prog)
open Verif.InMemory (PlainReq PlainNote)

variable {D H : Type} [DblFmt D]

/-! ### Executions, from the end -/

theorem run_nil (c : Cfg D) (w : World D H) : w.run c [] = w := rfl

theorem run_snoc (c : Cfg D) (w : World D H) (ops : List (Op D H)) (op : Op D H) : w.run c (ops ++ [op]) = (w.run c ops).step c op := by
  simp [World.run, List.foldl_append]

theorem run_append (c : Cfg D) (w : World D H) (a b : List (Op D H)) : w.run c (a ++ b) = (w.run c a).run c b := by
  simp [World.run, List.foldl_append]

theorem snoc_induction {α : Type} {P : List α → Prop} (h0 : P []) (h1 : ∀ l a, P l → P (l ++ [a])) (l : List α) : P l := by
  have : ∀ l : List α, P l.reverse := by
    intro l
    induction l with
    | nil => exact h0
    | cons a l ih => rw [List.reverse_cons]; exact h1 _ _ ih
  have h := this l.reverse
  rwa [List.reverse_reverse] at h

/-! ### The client -/

/-- What a step does to the client. -/
inductive ClientMove (s : CSys D) : Op D H → CSys D → Prop
  | stay (op : Op D H) : ClientMove s op s
  | call (api : Api D) : ClientMove s (.call api) (s.step (.call (body api)))
  | go (i : Nat) : ClientMove s (.go i) (s.step (.go i))
  | drop (i : Nat) : ClientMove s (.drop i) (s.step (.drop i))
  | change (u : Self D → Self D) : ClientMove s (.change u) (s.step (.change u))
  | fill (c : Nat) (o : Client.Outcome D) : ClientMove s (.deliver c) (s.step (.fill c o))

theorem client_step (c : Cfg D) (w : World D H) (op : Op D H) : ClientMove w.client op (w.step c op).client := by
  cases op with
  | call api => exact .call api
  | go i => simp only [World.step, World.go]; split <;> (try split) <;> exact .go i
  | drop i => exact .drop i
  | change u => exact .change u
  | deliver n =>
    simp only [World.step, World.deliver]
    split
    · split
      · exact .fill n _
      · exact .stay _
    · exact .stay _
  | wire y op => simp only [World.step]; split <;> exact .stay _
  | serve env =>
    simp only [World.step, World.serve]
    split
    · exact .stay _
    · split
      · exact .stay _
      · split <;> exact .stay _
  | own op => cases op <;> simp only [World.step] <;> (try split) <;> exact .stay _

/-- The client goes through an execution of its own. -/
theorem client_run (c : Cfg D) (s0 : Self D) (srv : Srv D H) (ops : List (Op D H)) :
    ∃ cops, ((World.init s0 srv).run c ops).client = (Sys.init s0).run cops ∧
      (∀ b, Await.Op.call b ∈ cops → ∃ api, b = body api ∧ Op.call api ∈ ops) ∧ (∀ u, Await.Op.change u ∈ cops → Op.change u ∈ ops) := by
  induction ops using snoc_induction with
  | h0 => exact ⟨[], rfl, by simp, by simp⟩
  | h1 ops op ih =>
    obtain ⟨cops, h1, h2, h3⟩ := ih
    rw [run_snoc]
    have hm := client_step c ((World.init s0 srv).run c ops) op
    have more : ∀ cop : COp D, ((((World.init s0 srv).run c ops).step c op).client = ((World.init s0 srv).run c ops).client.step cop) →
        (∀ b, cop = .call b → ∃ api, b = body api ∧ op = .call api) → (∀ u, cop = .change u → op = .change u) →
        ∃ cops, (((World.init s0 srv).run c ops).step c op).client = (Sys.init s0).run cops ∧
          (∀ b, Await.Op.call b ∈ cops → ∃ api, b = body api ∧ Op.call api ∈ ops ++ [op]) ∧ (∀ u, Await.Op.change u ∈ cops → Op.change u ∈ ops ++ [op]) := by
      intro cop h4 h5 h6
      refine ⟨cops ++ [cop], ?_, ?_, ?_⟩
      · rw [h4, h1, Await.run_append]; rfl
      · intro b hb
        rcases List.mem_append.1 hb with hb | hb
        · obtain ⟨api, h7, h8⟩ := h2 b hb
          exact ⟨api, h7, List.mem_append_left _ h8⟩
        · obtain ⟨api, h7, h8⟩ := h5 b (List.mem_singleton.1 hb).symm
          exact ⟨api, h7, by rw [h8]; simp⟩
      · intro u hu
        rcases List.mem_append.1 hu with hu | hu
        · exact List.mem_append_left _ (h3 u hu)
        · rw [h6 u (List.mem_singleton.1 hu).symm]; simp
    generalize hs : (((World.init s0 srv).run c ops).step c op).client = s' at hm more
    cases hm with
    | stay =>
      exact ⟨cops, h1, fun b hb => (h2 b hb).imp fun api h => ⟨h.1, List.mem_append_left _ h.2⟩, fun u hu => List.mem_append_left _ (h3 u hu)⟩
    | call api => exact more _ rfl (fun b hb => by cases hb; exact ⟨api, rfl, rfl⟩) (fun u hu => nomatch hu)
    | go i => exact more _ rfl (fun b hb => nomatch hb) (fun u hu => nomatch hu)
    | drop i => exact more _ rfl (fun b hb => nomatch hb) (fun u hu => nomatch hu)
    | change u => exact more _ rfl (fun b hb => nomatch hb) (fun u' hu => by cases hu; rfl)
    | fill n o => exact more _ rfl (fun b hb => nomatch hb) (fun u hu => nomatch hu)

/-! ### The transports -/

/-- The server's side when its handler is about to end with `o`. -/
def primed (s : Pair D) (j : Duplex.Job D) (o : HandlerOutcome D) : Pair D := { s with b := { s.b with job := some { j with prog := .done o, wait := none } } }

/-- What a step does to the transports. -/
inductive PairMove (c : Duplex.Cfg D) (s : Pair D) : Pair D → Prop
  | stay : PairMove c s s
  | wire (y : Bool) (op : EndOp D) (h : reserved y op = false) : PairMove c s (s.step c (y, op))
  | ask (q : Req D) : PairMove c s (s.step c (false, .check (asRequest q)))
  | reply (j : Duplex.Job D) (o : HandlerOutcome D) (h : s.b.job = some j) : PairMove c s ((primed s j o).step c (true, .work false))

theorem pair_step (c : Cfg D) (w : World D H) (op : Op D H) : PairMove c.duplex w.pair (w.step c op).pair := by
  cases op with
  | call api => exact .stay
  | go i =>
    simp only [World.step, World.go]
    split
    · split
      · exact .ask _
      · exact .stay
    · exact .stay
  | drop i => exact .stay
  | change u => exact .stay
  | deliver n =>
    simp only [World.step, World.deliver]
    split
    · split <;> exact .stay
    · exact .stay
  | wire y op =>
    simp only [World.step]
    split
    · exact .stay
    · rename_i h
      exact .wire y op (by cases hr : reserved y op <;> simp [hr] at h ⊢)
  | serve env =>
    simp only [World.step, World.serve]
    split
    · exact .stay
    · split
      · exact .stay
      · rename_i j hj
        split
        · rename_i r hr
          have := PairMove.reply (c := c.duplex) (s := w.pair) j (.resp r) hj
          simpa only [answer, hj, primed, Pair.step, Pair.set, Pair.get, End.step] using this
        · exact .stay
        · exact .stay
  | own op => cases op <;> simp only [World.step] <;> (try split) <;> exact .stay

theorem base_primed {e : End D} {w : W} (hb : Base e w) {j : Duplex.Job D} (hj : e.job = some j) (p : Prog D) :
    Base ({ e with job := some { j with prog := p, wait := none } } : End D) w := by
  obtain ⟨pops, hh⟩ := hb.hist
  refine ⟨hb.conn, hb.winv, hb.sized, ⟨pops, hh.run, hh.ids, hh.responses⟩, hb.reads.same rfl rfl rfl, ?_, hb.heard, fun m hm => ?_⟩
  · have := hb.jobs
    rw [hj] at this
    exact this
  · cases hb.origin m hm with
    | request h1 h2 => exact .request h1 h2
    | note h1 => exact .note h1
    | reply h1 => exact .reply h1

theorem good_primed {s : Pair D} (hg : Good s) {j : Duplex.Job D} (hj : s.b.job = some j) (o : HandlerOutcome D) : Good (primed s j o) := by
  intro y
  cases y with
  | false => exact hg false
  | true => exact base_primed (hg true) hj _

theorem good_move {c : Duplex.Cfg D} {s t : Pair D} (hm : PairMove c s t) (hg : Good s) : Good t := by
  cases hm with
  | stay => exact hg
  | wire y op h => exact good_step c hg _
  | ask q => exact good_step c hg _
  | reply j o h => exact good_step c (good_primed hg h o) _

theorem good_world (c : Cfg D) (s0 : Self D) (srv : Srv D H) (ops : List (Op D H)) : Good ((World.init s0 srv).run c ops).pair := by
  induction ops using snoc_induction with
  | h0 => exact good_init
  | h1 ops op ih => rw [run_snoc]; exact good_move (pair_step c _ op) ih

theorem grows_primed (s : Pair D) (j : Duplex.Job D) (o : HandlerOutcome D) (y : Bool) : Grows (s.get y) ((primed s j o).get y) := by
  cases y <;> exact ⟨List.prefix_rfl, List.prefix_rfl, List.prefix_rfl, List.prefix_rfl, List.prefix_rfl, List.prefix_rfl, List.prefix_rfl, List.prefix_rfl⟩

theorem Grows.trans {a b c : End D} (h : Grows a b) (h' : Grows b c) : Grows a c :=
  ⟨h.given.trans h'.given, h.notes.trans h'.notes, h.taken.trans h'.taken, h.replies.trans h'.replies, h.sent.trans h'.sent,
    h.outcomes.trans h'.outcomes, h.accepted.trans h'.accepted, h.out.trans h'.out⟩

theorem grows_move {c : Duplex.Cfg D} {s t : Pair D} (hm : PairMove c s t) (y : Bool) : Grows (s.get y) (t.get y) := by
  cases hm with
  | stay => exact ⟨List.prefix_rfl, List.prefix_rfl, List.prefix_rfl, List.prefix_rfl, List.prefix_rfl, List.prefix_rfl, List.prefix_rfl, List.prefix_rfl⟩
  | wire y op h => exact grows_pair c s _ _
  | ask q => exact grows_pair c s _ _
  | reply j o h => exact Grows.trans (grows_primed s j o y) (grows_pair c _ _ _)

theorem given_next {e : End D} {w : W} (hb : Base e w) : e.p.nextFut = e.given.length := by
  obtain ⟨pops, hh⟩ := hb.hist
  rw [hh.linked.next, hh.ids, List.length_map]

/-! ### Calls and their futures -/

/-- The futures of the calls are those of their requests. -/
structure Link (w : World D H) : Prop where
  len : w.futs.length = w.client.cells.length
  sent : ∀ (i : Nat) (x : CCall D) (n : Nat) (q : Req D), w.client.calls[i]? = some x → Ev.sent n q ∈ x.path →
    ∃ m, w.futs[n]? = some m ∧ w.pair.a.given[m]? = some (asRequest q)
  cell : ∀ (n : Nat) (o : Client.Outcome D), w.client.cells[n]? = some (some o) →
    ∃ m so, w.futs[n]? = some m ∧ AMap.get w.pair.a.p.outcomes m = some so ∧ o = seen so

theorem get_grows {l l' : List (Nat × Stdio.Outcome D)} (h : l <+: l') {n : Nat} {o : Stdio.Outcome D} (hg : AMap.get l n = some o) : AMap.get l' n = some o := by
  obtain ⟨k, rfl⟩ := h
  induction l with
  | nil => cases hg
  | cons x l ih =>
    simp only [List.cons_append, AMap.get] at hg ⊢
    split
    · rename_i h1; rw [if_pos h1] at hg; exact hg
    · rename_i h1; rw [if_neg h1] at hg; exact ih hg

/-- What a step that is not a call going on leaves of paths and cells. -/
theorem paths_step (s : CSys D) (op : COp D) (hop : ∀ i, op ≠ .go i) (j : Nat) (y : CCall D) (hy : (s.step op).calls[j]? = some y) (n : Nat) (q : Req D)
    (hq : Ev.sent n q ∈ y.path) : ∃ z : CCall D, s.calls[j]? = some z ∧ Ev.sent n q ∈ z.path := by
  unfold Sys.step at hy
  split at hy
  · exact ⟨y, hy, hq⟩
  · cases op with
    | call b =>
      dsimp only at hy
      split at hy
      · rcases Nat.lt_or_ge j s.calls.length with hj | hj
        · rw [List.getElem?_append_left hj] at hy
          exact ⟨y, hy, hq⟩
        · rw [List.getElem?_append_right hj] at hy
          have : y = ⟨b, .run b, false, true, []⟩ := by
            cases hjj : j - s.calls.length with
            | zero => rw [hjj] at hy; exact (Option.some.inj hy).symm
            | succ n => rw [hjj] at hy; cases hy
          subst this
          cases hq
      · exact ⟨y, hy, hq⟩
    | go i => exact absurd rfl (hop i)
    | fill c a => dsimp only at hy; split at hy <;> exact ⟨y, hy, hq⟩
    | drop i =>
      dsimp only at hy
      split at hy
      · rename_i x hx
        split at hy
        · rcases Await.get_set hx hy with ⟨rfl, rfl⟩ | ⟨_, hy⟩
          · exact ⟨x, hx, hq⟩
          · exact ⟨y, hy, hq⟩
        · exact ⟨y, hy, hq⟩
      · exact ⟨y, hy, hq⟩
    | change u => dsimp only at hy; split at hy <;> exact ⟨y, hy, hq⟩
    | destroy => dsimp only at hy; split at hy <;> exact ⟨y, hy, hq⟩

theorem cells_step (s : CSys D) (op : COp D) (hop : ∀ i, op ≠ .go i) : (s.step op).cells.length = s.cells.length := by
  unfold Sys.step
  split
  · rfl
  · cases op with
    | go i => exact absurd rfl (hop i)
    | fill c a => dsimp only; split <;> simp
    | drop i => dsimp only; split <;> (try split) <;> rfl
    | _ => dsimp only; split <;> rfl

theorem cells_other (s : CSys D) (op : COp D) (hop : ∀ i, op ≠ .go i) (n : Nat) (o : Client.Outcome D) (h : (s.step op).cells[n]? = some (some o)) :
    s.cells[n]? = some (some o) ∨ op = .fill n o := by
  unfold Sys.step at h
  split at h
  · exact .inl h
  · cases op with
    | go i => exact absurd rfl (hop i)
    | fill c a =>
      dsimp only at h
      split at h
      · rename_i hc
        rcases Await.get_set hc h with ⟨rfl, h1⟩ | ⟨_, h1⟩
        · cases h1; exact .inr rfl
        · exact .inl h1
      · exact .inl h
    | drop i => dsimp only at h; revert h; split <;> (try split) <;> exact .inl
    | call b => dsimp only at h; revert h; split <;> exact .inl
    | change u => dsimp only at h; revert h; split <;> exact .inl
    | destroy => dsimp only at h; revert h; split <;> exact .inl

/-- A call that goes on without sending. -/
theorem go_quiet (s : CSys D) (i : Nat) (h : asking s i = none ∨ ¬ (s.ub = false ∧ s.alive = true)) :
    (s.step (.go i)).cells = s.cells ∧ ∀ (j : Nat) (y : CCall D), (s.step (.go i)).calls[j]? = some y → ∀ (n : Nat) (q : Req D), Ev.sent n q ∈ y.path →
      ∃ z : CCall D, s.calls[j]? = some z ∧ Ev.sent n q ∈ z.path := by
  unfold Sys.step
  split
  · exact ⟨rfl, fun j y hy n q hq => ⟨y, hy, hq⟩⟩
  · rename_i hub
    dsimp only
    split
    · rename_i x hx
      have hset : ∀ z : CCall D, (∀ (n : Nat) (q : Req D), Ev.sent n q ∈ z.path → Ev.sent n q ∈ x.path) → ∀ (j : Nat) (y : CCall D),
          (s.calls.set i z)[j]? = some y → ∀ (n : Nat) (q : Req D), Ev.sent n q ∈ y.path → ∃ z : CCall D, s.calls[j]? = some z ∧ Ev.sent n q ∈ z.path := by
        intro z hz j y hy n q hq
        rcases Await.get_set hx hy with ⟨rfl, rfl⟩ | ⟨_, hy⟩
        · exact ⟨x, hx, hz n q hq⟩
        · exact ⟨y, hy, hq⟩
      have same : ∀ (j : Nat) (y : CCall D), s.calls[j]? = some y → ∀ (n : Nat) (q : Req D), Ev.sent n q ∈ y.path →
          ∃ z : CCall D, s.calls[j]? = some z ∧ Ev.sent n q ∈ z.path := fun j y hy n q hq => ⟨y, hy, hq⟩
      unfold Sys.go
      split
      · exact ⟨rfl, hset _ fun n q h => h⟩
      · split
        · exact ⟨rfl, hset _ fun n q h => h⟩
        · exact ⟨rfl, same⟩
      · split
        · exact ⟨rfl, hset _ fun n q h => by simpa using h⟩
        · exact ⟨rfl, same⟩
      · rename_i q k hst
        split
        · rename_i hal
          rcases h with h | h
          · simp only [asking, hx, hst] at h; cases h
          · exact absurd ⟨by simpa using hub, hal⟩ h
        · exact ⟨rfl, same⟩
      · split
        · exact ⟨rfl, hset _ fun n q h => by simpa using h⟩
        · exact ⟨rfl, hset _ fun n q h => h⟩
      · split
        · exact ⟨rfl, hset _ fun n q h => by simpa using h⟩
        · exact ⟨rfl, same⟩
      · exact ⟨rfl, same⟩
    · exact ⟨rfl, fun j y hy n q hq => ⟨y, hy, hq⟩⟩

/-- A call that sends its request. -/
theorem go_asks (s : CSys D) (i : Nat) (q : Req D) (h : asking s i = some q) (hs : s.ub = false ∧ s.alive = true) :
    (s.step (.go i)).cells = s.cells ++ [none] ∧ ∀ (j : Nat) (y : CCall D), (s.step (.go i)).calls[j]? = some y → ∀ (n : Nat) (q' : Req D), Ev.sent n q' ∈ y.path →
      (n = s.cells.length ∧ q' = q) ∨ ∃ z : CCall D, s.calls[j]? = some z ∧ Ev.sent n q' ∈ z.path := by
  unfold asking at h
  split at h
  · rename_i x hx
    split at h
    · rename_i q0 k hst
      cases h
      have : s.step (.go i) = { s with cells := s.cells ++ [none], calls := s.calls.set i { x with st := .check s.cells.length k, path := x.path ++ [.sent s.cells.length q] } } := by
        unfold Sys.step
        rw [if_neg (by rw [hs.1]; decide)]
        simp only [hx, Sys.go, hst, hs.2, if_true]
      rw [this]
      refine ⟨rfl, fun j y hy n q' hq => ?_⟩
      rcases Await.get_set hx hy with ⟨rfl, rfl⟩ | ⟨_, hy⟩
      · rcases List.mem_append.1 hq with hq | hq
        · exact .inr ⟨x, hx, hq⟩
        · cases List.mem_singleton.1 hq; exact .inl ⟨rfl, rfl⟩
      · exact .inr ⟨y, hy, hq⟩
    · cases h
  · cases h

end Verif.Whole
