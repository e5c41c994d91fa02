import Verif.Pipe.Model
import Verif.Whole.Props
import Verif.Ask.Calls

/-! Helper lemmas for C135: what a step of the server, the transports and the client together does to each of them. -/

namespace Verif.Pipe

open Verif.Await Verif.Client Verif.Server Verif.Duplex Verif.Stdio
open Verif.Serve (Prog)
open Verif.InMemory (PlainReq PlainNote)
open Verif.Whole (snoc_induction seen reserved answer primed good_primed grows_primed)
open Verif.Ask (asRequest asking)

variable {D H : Type} [DblFmt D]

/-! ### Executions, from the end -/

theorem run_nil (c : Cfg D) (w : World D H) : w.run c [] = w := rfl

theorem run_snoc (c : Cfg D) (w : World D H) (ops : List (Op D H)) (op : Op D H) : w.run c (ops ++ [op]) = (w.run c ops).step c op := by
  simp [World.run, List.foldl_append]

theorem run_append (c : Cfg D) (w : World D H) (a b : List (Op D H)) : w.run c (a ++ b) = (w.run c a).run c b := by
  simp [World.run, List.foldl_append]

/-! ### The server -/

/-- What a step does to the server. -/
inductive ServerMove (s : SSys D) : Op D H → SSys D → Prop
  | stay (op : Op D H) : ServerMove s op s
  | call (api : SApi D) : ServerMove s (.call api) (s.step (.call (sbody api)))
  | go (i : Nat) : ServerMove s (.go i) (s.step (.go i))
  | drop (i : Nat) : ServerMove s (.drop i) (s.step (.drop i))
  | change (u : SSelf D → SSelf D) : ServerMove s (.change u) (s.step (.change u))
  | fill (c : Nat) (o : Client.Outcome D) : ServerMove s (.deliver c) (s.step (.fill c o))

theorem server_step (c : Cfg D) (w : World D H) (op : Op D H) : ServerMove w.server op (w.step c op).server := by
  cases op with
  | call api => exact .call api
  | go i => simp only [World.step, World.go]; split <;> (try split) <;> exact .go i
  | drop i => exact .drop i
  | change u => exact .change u
  | deliver n =>
    simp only [World.step, World.deliver]
    split
    · split
      · exact .fill n _
      · exact .stay _
    · exact .stay _
  | wire y op => simp only [World.step]; split <;> exact .stay _
  | serve env =>
    simp only [World.step, World.serve]
    split
    · exact .stay _
    · split
      · exact .stay _
      · split <;> exact .stay _
  | own op => cases op <;> simp only [World.step] <;> (try split) <;> exact .stay _

/-- The server goes through an execution of its own. -/
theorem server_run (c : Cfg D) (s0 : SSelf D) (cli : Cli D H) (ops : List (Op D H)) :
    ∃ cops, ((World.init s0 cli).run c ops).server = (Sys.init s0).run cops ∧
      (∀ b, Await.Op.call b ∈ cops → ∃ api, b = sbody api ∧ Op.call api ∈ ops) ∧ (∀ u, Await.Op.change u ∈ cops → Op.change u ∈ ops) := by
  induction ops using snoc_induction with
  | h0 => exact ⟨[], rfl, by simp, by simp⟩
  | h1 ops op ih =>
    obtain ⟨cops, h1, h2, h3⟩ := ih
    rw [run_snoc]
    have hm := server_step c ((World.init s0 cli).run c ops) op
    have more : ∀ cop : SOp D, ((((World.init s0 cli).run c ops).step c op).server = ((World.init s0 cli).run c ops).server.step cop) →
        (∀ b, cop = .call b → ∃ api, b = sbody api ∧ op = .call api) → (∀ u, cop = .change u → op = .change u) →
        ∃ cops, (((World.init s0 cli).run c ops).step c op).server = (Sys.init s0).run cops ∧
          (∀ b, Await.Op.call b ∈ cops → ∃ api, b = sbody api ∧ Op.call api ∈ ops ++ [op]) ∧ (∀ u, Await.Op.change u ∈ cops → Op.change u ∈ ops ++ [op]) := by
      intro cop h4 h5 h6
      refine ⟨cops ++ [cop], ?_, ?_, ?_⟩
      · rw [h4, h1, Await.run_append]; rfl
      · intro b hb
        rcases List.mem_append.1 hb with hb | hb
        · obtain ⟨api, h7, h8⟩ := h2 b hb
          exact ⟨api, h7, List.mem_append_left _ h8⟩
        · obtain ⟨api, h7, h8⟩ := h5 b (List.mem_singleton.1 hb).symm
          exact ⟨api, h7, by rw [h8]; simp⟩
      · intro u hu
        rcases List.mem_append.1 hu with hu | hu
        · exact List.mem_append_left _ (h3 u hu)
        · rw [h6 u (List.mem_singleton.1 hu).symm]; simp
    generalize hs : (((World.init s0 cli).run c ops).step c op).server = s' at hm more
    cases hm with
    | stay =>
      exact ⟨cops, h1, fun b hb => (h2 b hb).imp fun api h => ⟨h.1, List.mem_append_left _ h.2⟩, fun u hu => List.mem_append_left _ (h3 u hu)⟩
    | call api => exact more _ rfl (fun b hb => by cases hb; exact ⟨api, rfl, rfl⟩) (fun u hu => nomatch hu)
    | go i => exact more _ rfl (fun b hb => nomatch hb) (fun u hu => nomatch hu)
    | drop i => exact more _ rfl (fun b hb => nomatch hb) (fun u hu => nomatch hu)
    | change u => exact more _ rfl (fun b hb => nomatch hb) (fun u' hu => by cases hu; rfl)
    | fill n o => exact more _ rfl (fun b hb => nomatch hb) (fun u hu => nomatch hu)

/-! ### The transports -/

/-- What a step does to the transports. -/
inductive PairMove (c : Duplex.Cfg D) (s : Pair D) : Pair D → Prop
  | stay : PairMove c s s
  | wire (y : Bool) (op : EndOp D) (h : reserved y op = false) : PairMove c s (s.step c (y, op))
  | ask (q : SReq D) : PairMove c s (s.step c (false, .check (asRequest q)))
  | reply (j : Duplex.Job D) (o : HandlerOutcome D) (h : s.b.job = some j) : PairMove c s ((primed s j o).step c (true, .work false))

theorem pair_step (c : Cfg D) (w : World D H) (op : Op D H) : PairMove c.duplex w.pair (w.step c op).pair := by
  cases op with
  | call api => exact .stay
  | go i =>
    simp only [World.step, World.go]
    split
    · split
      · exact .ask _
      · exact .stay
    · exact .stay
  | drop i => exact .stay
  | change u => exact .stay
  | deliver n =>
    simp only [World.step, World.deliver]
    split
    · split <;> exact .stay
    · exact .stay
  | wire y op =>
    simp only [World.step]
    split
    · exact .stay
    · rename_i h
      exact .wire y op (by cases hr : reserved y op <;> simp [hr] at h ⊢)
  | serve env =>
    simp only [World.step, World.serve]
    split
    · exact .stay
    · split
      · exact .stay
      · rename_i j hj
        split
        · rename_i r hr
          have := PairMove.reply (c := c.duplex) (s := w.pair) j (.resp r) hj
          simpa only [answer, hj, primed, Pair.step, Pair.set, Pair.get, End.step] using this
        · exact .stay
        · exact .stay
  | own op => cases op <;> simp only [World.step] <;> (try split) <;> exact .stay

theorem good_move {c : Duplex.Cfg D} {s t : Pair D} (hm : PairMove c s t) (hg : Good s) : Good t := by
  cases hm with
  | stay => exact hg
  | wire y op h => exact good_step c hg _
  | ask q => exact good_step c hg _
  | reply j o h => exact good_step c (good_primed hg h o) _

theorem grows_move {c : Duplex.Cfg D} {s t : Pair D} (hm : PairMove c s t) (y : Bool) : Grows (s.get y) (t.get y) := by
  cases hm with
  | stay => exact ⟨List.prefix_rfl, List.prefix_rfl, List.prefix_rfl, List.prefix_rfl, List.prefix_rfl, List.prefix_rfl, List.prefix_rfl, List.prefix_rfl⟩
  | wire y op h => exact grows_pair c s _ _
  | ask q => exact grows_pair c s _ _
  | reply j o h => exact Whole.Grows.trans (grows_primed s j o y) (grows_pair c _ _ _)

theorem good_world (c : Cfg D) (s0 : SSelf D) (cli : Cli D H) (ops : List (Op D H)) : Good ((World.init s0 cli).run c ops).pair := by
  induction ops using snoc_induction with
  | h0 => exact good_init
  | h1 ops op ih => rw [run_snoc]; exact good_move (pair_step c _ op) ih

/-! ### Calls and their futures -/

/-- The futures of the calls are those of their requests. -/
structure Link (w : World D H) : Prop where
  len : w.futs.length = w.server.cells.length
  sent : ∀ (i : Nat) (x : SCall D) (n : Nat) (q : SReq D), w.server.calls[i]? = some x → Ev.sent n q ∈ x.path →
    ∃ m, w.futs[n]? = some m ∧ w.pair.a.given[m]? = some (asRequest q)
  cell : ∀ (n : Nat) (o : Client.Outcome D), w.server.cells[n]? = some (some o) →
    ∃ m so, w.futs[n]? = some m ∧ AMap.get w.pair.a.p.outcomes m = some so ∧ o = seen so

end Verif.Pipe
