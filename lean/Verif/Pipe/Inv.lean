import Verif.Pipe.Lemmas

/-! Helper lemmas for C135: which future belongs to which call, and where the answers of the client come from. -/

namespace Verif.Pipe

open Verif.Await Verif.Client Verif.Server Verif.Duplex Verif.Stdio
open Verif.Serve (Prog)
open Verif.InMemory (PlainReq PlainNote)
open Verif.Whole (snoc_induction lt_of_get seen reserved answer primed good_primed given_next get_grows replies_other replies_answer)
open Verif.Ask (asRequest asking paths_step cells_step cells_other go_quiet go_asks)

variable {D H : Type} [DblFmt D]

theorem Link.keep {w w' : World D H} (h : Link w) (hf : w'.futs = w.futs) (hl : w'.server.cells.length = w.server.cells.length)
    (hg : Grows w.pair.a w'.pair.a)
    (hp : ∀ (j : Nat) (y : SCall D), w'.server.calls[j]? = some y → ∀ (n : Nat) (q : SReq D), Ev.sent n q ∈ y.path →
      ∃ z : SCall D, w.server.calls[j]? = some z ∧ Ev.sent n q ∈ z.path)
    (hc : ∀ (n : Nat) (o : Client.Outcome D), w'.server.cells[n]? = some (some o) → w.server.cells[n]? = some (some o) ∨
      ∃ m so, w.futs[n]? = some m ∧ AMap.get w.pair.a.p.outcomes m = some so ∧ o = seen so) : Link w' := by
  refine ⟨by rw [hf, hl]; exact h.len, fun i x n q hx hq => ?_, fun n o hn => ?_⟩
  · obtain ⟨z, h1, h2⟩ := hp i x hx n q hq
    obtain ⟨m, h3, h4⟩ := h.sent i z n q h1 h2
    exact ⟨m, by rw [hf]; exact h3, get_prefix hg.given h4⟩
  · rcases hc n o hn with h1 | ⟨m, so, h1, h2, h3⟩
    · obtain ⟨m, so, h1, h2, h3⟩ := h.cell n o h1
      exact ⟨m, so, by rw [hf]; exact h1, get_grows hg.outcomes h2, h3⟩
    · exact ⟨m, so, by rw [hf]; exact h1, get_grows hg.outcomes h2, h3⟩

theorem link_step (c : Cfg D) {w : World D H} (hg : Good w.pair) (h : Link w) (op : Op D H) : Link (w.step c op) := by
  have hgr := grows_move (pair_step c w op) false
  have same : ∀ w' : World D H, w'.futs = w.futs → w'.server = w.server → Grows w.pair.a w'.pair.a → Link w' := by
    intro w' h1 h2 h3
    exact h.keep h1 (by rw [h2]) h3 (fun j y hy n q hq => ⟨y, by rw [← h2]; exact hy, hq⟩) (fun n o hn => .inl (by rw [← h2]; exact hn))
  have hserver : ∀ (w' : World D H) (cop : SOp D), (∀ i, cop ≠ .go i) → (∀ n o, cop ≠ .fill n o) → w'.futs = w.futs → w'.server = w.server.step cop →
      Grows w.pair.a w'.pair.a → Link w' := by
    intro w' cop h0 h0' h1 h2 h3
    refine h.keep h1 (by rw [h2]; exact cells_step _ _ h0) h3 (fun j y hy n q hq => ?_) (fun n o hn => ?_)
    · rw [h2] at hy; exact paths_step _ _ h0 j y hy n q hq
    · rw [h2] at hn
      rcases cells_other _ _ h0 n o hn with h4 | h4
      · exact .inl h4
      · exact absurd h4 (h0' n o)
  have hnf : ∀ (m : Nat) (so : Stdio.Outcome D), ∀ k, ∀ i, (Await.Op.fill k (seen so) : SOp D) ≠ .go i := fun _ _ _ _ h => nomatch h
  cases op with
  | call api => exact hserver _ (.call (sbody api)) (fun i => nofun) (fun n o => nofun) rfl rfl hgr
  | drop i => exact hserver _ (.drop i) (fun i => nofun) (fun n o => nofun) rfl rfl hgr
  | change u => exact hserver _ (.change u) (fun i => nofun) (fun n o => nofun) rfl rfl hgr
  | wire y op => revert hgr; simp only [World.step]; split <;> exact fun hgr => same _ rfl rfl hgr
  | serve env =>
    revert hgr
    simp only [World.step, World.serve]
    split
    · exact fun hgr => same _ rfl rfl hgr
    · split
      · exact fun hgr => same _ rfl rfl hgr
      · split <;> exact fun hgr => same _ rfl rfl hgr
  | own op => revert hgr; cases op <;> simp only [World.step] <;> (try split) <;> exact fun hgr => same _ rfl rfl hgr
  | deliver k =>
    revert hgr
    simp only [World.step, World.deliver]
    split
    · rename_i m hm
      split
      · rename_i so hso
        intro hgr
        refine h.keep rfl (cells_step _ _ (hnf m so k)) hgr (fun j y hy n q hq => paths_step _ _ (hnf m so k) j y hy n q hq) (fun n o hn => ?_)
        rcases cells_other _ _ (hnf m so k) n o hn with h4 | h4
        · exact .inl h4
        · cases h4; exact .inr ⟨m, so, hm, hso, rfl⟩
      · exact fun hgr => same _ rfl rfl hgr
    · exact fun hgr => same _ rfl rfl hgr
  | go i =>
    revert hgr
    simp only [World.step, World.go]
    have quiet : (asking w.server i = none ∨ ¬ (w.server.ub = false ∧ w.server.alive = true)) → Grows w.pair.a w.pair.a →
        Link ({ w with server := w.server.step (.go i) } : World D H) := by
      intro hq hgr
      obtain ⟨h1, h2⟩ := go_quiet w.server i hq
      exact h.keep rfl (by rw [h1]) hgr h2 (fun n o hn => .inl (by rw [← h1]; exact hn))
    split
    · rename_i q hq
      split
      · rename_i hs
        intro hgr
        obtain ⟨h1, h2⟩ := go_asks w.server i q hq hs
        refine ⟨?_, fun j y n q' hy hq' => ?_, fun n o hn => ?_⟩
        · simp only [List.length_append, h1, h.len]; rfl
        · rcases h2 j y hy n q' hq' with ⟨rfl, rfl⟩ | ⟨z, h3, h4⟩
          · refine ⟨w.pair.a.p.nextFut, ?_, ?_⟩
            · rw [← h.len]; simp
            · show (w.pair.a.given ++ [asRequest q'])[w.pair.a.p.nextFut]? = _
              have := given_next (hg false)
              rw [show w.pair.a.p.nextFut = w.pair.a.given.length from this]
              simp
          · obtain ⟨m, h5, h6⟩ := h.sent j z n q' h3 h4
            exact ⟨m, get_prefix (List.prefix_append _ _) h5, get_prefix hgr.given h6⟩
        · rw [show ({ w with server := w.server.step (.go i), futs := w.futs ++ [w.pair.a.p.nextFut], pair := { w.pair with a := w.pair.a.check (asRequest q) } } :
              World D H).server.cells = _ from h1] at hn
          have hn' : w.server.cells[n]? = some (some o) := by
            rcases Nat.lt_or_ge n w.server.cells.length with hl | hl
            · rwa [List.getElem?_append_left hl] at hn
            · rw [List.getElem?_append_right hl] at hn
              cases hk : n - w.server.cells.length with
              | zero => rw [hk] at hn; cases hn
              | succ k => rw [hk] at hn; cases hn
          obtain ⟨m, so, h5, h6, h7⟩ := h.cell n o hn'
          exact ⟨m, so, get_prefix (List.prefix_append _ _) h5, get_grows hgr.outcomes h6, h7⟩
      · rename_i hs; exact quiet (.inr hs)
    · rename_i hq; exact quiet (.inl hq)

theorem link_world (c : Cfg D) (s0 : SSelf D) (cli : Cli D H) (ops : List (Op D H)) : Link ((World.init s0 cli).run c ops) := by
  induction ops using snoc_induction with
  | h0 => exact ⟨rfl, fun i x n q hx => (nomatch hx), fun n o hn => (nomatch hn)⟩
  | h1 ops op ih => rw [run_snoc]; exact link_step c (good_world c s0 cli ops) ih op

/-! ### The answers of the client -/

/-- The answers of the client are changed by `serve` alone. -/
theorem replies_step (c : Cfg D) (w : World D H) (op : Op D H) : (w.step c op).pair.b.replies = w.pair.b.replies ∨
    ∃ env j r, op = .serve env ∧ w.dead = false ∧ w.pair.b.job = some j ∧ (onRequest env w.cli j.req).1 = .answer r ∧
      (w.step c op).cli = (onRequest env w.cli j.req).2 ∧ (w.step c op).pair.b.replies = w.pair.b.replies ++ [(j.req, .resp r)] := by
  cases op with
  | call api => exact .inl rfl
  | drop i => exact .inl rfl
  | change u => exact .inl rfl
  | go i =>
    simp only [World.step, World.go]
    split
    · split <;> exact .inl rfl
    · exact .inl rfl
  | deliver n =>
    simp only [World.step, World.deliver]
    split
    · split <;> exact .inl rfl
    · exact .inl rfl
  | wire y op =>
    simp only [World.step]
    split
    · exact .inl rfl
    · rename_i h
      left
      cases y with
      | false => rfl
      | true =>
        refine replies_other _ _ _ _ _ fun b hb => ?_
        subst hb
        simp [reserved] at h
  | own op =>
    left
    cases op <;> simp only [World.step] <;> split <;> rfl
  | serve env =>
    simp only [World.step, World.serve]
    split
    · exact .inl rfl
    · rename_i hd
      split
      · exact .inl rfl
      · rename_i j hj
        split
        · rename_i r hr
          exact .inr ⟨env, j, r, rfl, by simpa using hd, hj, hr, rfl, replies_answer hj _⟩
        · exact .inl rfl
        · exact .inl rfl

/-- With the step at this place of the execution the client dispatched this request, in the state it was in, with this answer. -/
def DispatchedAt (c : Cfg D) (w : World D H) (ops : List (Op D H)) (p : Nat) (q : Request D) (env : CliEnv D H) (cli : Cli D H) (r : Response D) : Prop :=
  ops[p]? = some (.serve env) ∧ (∃ j, (w.run c (ops.take p)).pair.b.job = some j ∧ j.req = q) ∧ (w.run c (ops.take p)).cli = cli ∧
    (w.run c (ops.take p)).dead = false ∧ (onRequest env cli q).1 = .answer r

theorem DispatchedAt.more {c : Cfg D} {w : World D H} {ops : List (Op D H)} {p : Nat} {q : Request D} {env : CliEnv D H} {cli : Cli D H} {r : Response D}
    (h : DispatchedAt c w ops p q env cli r) (op : Op D H) : DispatchedAt c w (ops ++ [op]) p q env cli r := by
  obtain ⟨h1, h2⟩ := h
  have hl := lt_of_get h1
  refine ⟨by rw [List.getElem?_append_left hl]; exact h1, ?_⟩
  rw [List.take_append_of_le_length (Nat.le_of_lt hl)]
  exact h2

theorem dispatched_last {c : Cfg D} {w : World D H} {ops : List (Op D H)} {env : CliEnv D H} {j : Duplex.Job D} {r : Response D}
    (hj : (w.run c ops).pair.b.job = some j) (hd : (w.run c ops).dead = false) (hr : (onRequest env (w.run c ops).cli j.req).1 = .answer r) :
    DispatchedAt c w (ops ++ [.serve env]) ops.length j.req env (w.run c ops).cli r := by
  have ht : (ops ++ [Op.serve env]).take ops.length = ops := by simp
  refine ⟨by simp, ?_⟩
  rw [ht]
  exact ⟨⟨j, hj, rfl⟩, rfl, hd, hr⟩

theorem replies_world (c : Cfg D) (s0 : SSelf D) (cli : Cli D H) (ops : List (Op D H)) (q : Request D) (o : HandlerOutcome D)
    (h : (q, o) ∈ ((World.init s0 cli).run c ops).pair.b.replies) : ∃ p env σ r, o = .resp r ∧ DispatchedAt c (World.init s0 cli) ops p q env σ r := by
  induction ops using snoc_induction with
  | h0 => cases h
  | h1 ops op ih =>
    rw [run_snoc] at h
    rcases replies_step c ((World.init s0 cli).run c ops) op with h1 | ⟨env, j, r, rfl, h1, h2, h3, -, h4⟩
    · rw [h1] at h
      obtain ⟨p, env, σ, r, h2, h3⟩ := ih h
      exact ⟨p, env, σ, r, h2, h3.more op⟩
    · rw [h4] at h
      rcases List.mem_append.1 h with h | h
      · obtain ⟨p, env', σ, r, h2, h3⟩ := ih h
        exact ⟨p, env', σ, r, h2, h3.more _⟩
      · cases List.mem_singleton.1 h
        exact ⟨ops.length, env, _, r, rfl, dispatched_last h2 h1 h3⟩

/-- The futures of the calls are different ones. -/
theorem futs_world (c : Cfg D) (s0 : SSelf D) (cli : Cli D H) (ops : List (Op D H)) :
    let w := (World.init s0 cli).run c ops
    w.futs.Nodup ∧ ∀ n ∈ w.futs, n < w.pair.a.p.nextFut := by
  induction ops using snoc_induction with
  | h0 => exact ⟨List.nodup_nil, fun n hn => nomatch hn⟩
  | h1 ops op ih =>
    obtain ⟨h1, h2⟩ := ih
    intro w
    have hw : w = ((World.init s0 cli).run c ops).step c op := run_snoc c _ ops op
    have hg := good_world c s0 cli ops
    have hg' : Good w.pair := good_world c s0 cli (ops ++ [op])
    have hn : ((World.init s0 cli).run c ops).pair.a.p.nextFut = ((World.init s0 cli).run c ops).pair.a.given.length := given_next (hg false)
    have hn' : w.pair.a.p.nextFut = w.pair.a.given.length := given_next (hg' false)
    have hle : ((World.init s0 cli).run c ops).pair.a.p.nextFut ≤ w.pair.a.p.nextFut := by
      rw [hn, hn', hw]
      exact (grows_move (pair_step c ((World.init s0 cli).run c ops) op) false).given.length_le
    have hcase : w.futs = ((World.init s0 cli).run c ops).futs ∨
        (w.futs = ((World.init s0 cli).run c ops).futs ++ [((World.init s0 cli).run c ops).pair.a.p.nextFut] ∧
          ((World.init s0 cli).run c ops).pair.a.p.nextFut < w.pair.a.p.nextFut) := by
      rw [hn', hw]
      cases op with
      | go i =>
        simp only [World.step, World.go]
        split
        · split
          · right
            rw [hn]
            exact ⟨rfl, by simp [Pair.get, End.check]⟩
          · exact .inl rfl
        · exact .inl rfl
      | deliver n =>
        simp only [World.step, World.deliver]
        split
        · split <;> exact .inl rfl
        · exact .inl rfl
      | wire y op => simp only [World.step]; split <;> exact .inl rfl
      | serve env =>
        simp only [World.step, World.serve]
        split
        · exact .inl rfl
        · split
          · exact .inl rfl
          · split <;> exact .inl rfl
      | own op =>
        left
        cases op <;> simp only [World.step] <;> split <;> rfl
      | _ => exact .inl rfl
    rcases hcase with h3 | ⟨h3, h4⟩
    · rw [h3]; exact ⟨h1, fun n hn => Nat.lt_of_lt_of_le (h2 n hn) hle⟩
    · rw [h3]
      refine ⟨?_, fun n hn => ?_⟩
      · rw [List.nodup_append]
        refine ⟨h1, by simp, fun a ha b hb => ?_⟩
        have := h2 a ha
        rw [List.mem_singleton.1 hb]
        omega
      · rcases List.mem_append.1 hn with hn | hn
        · exact Nat.lt_of_lt_of_le (h2 n hn) hle
        · rw [List.mem_singleton.1 hn]; exact h4

end Verif.Pipe
