import Verif.Near.Lemmas

/-!
C129, continued: what ends the process of client and server, and that nothing happens afterwards.
-/

namespace Verif.Near

open Verif.Await Verif.Client Verif.Server Verif.InMemory
open Verif.Whole (asRequest asking snoc_induction lt_of_get paths_step cells_step cells_other go_quiet go_asks RunFor dispatch_runs own_runs)
open Verif.Stdio (idText)
open Verif.Duplex (get_prefix)

variable {D H : Type} [DblFmt D]

/-- C129, the process of both: once it has been ended nothing happens any more. -/
theorem C129_gone (w : World D H) (ops : List (Op D H)) (h : w.dead = true) : (w.run ops).dead = true ∧ w.run ops = w := by
  induction ops using snoc_induction with
  | h0 => exact ⟨h, rfl⟩
  | h1 ops op ih =>
    rw [run_snoc, ih.2]
    unfold World.step
    rw [if_pos h]
    exact ⟨h, rfl⟩

theorem ended_by (s0 : Self D) (srv : Srv D H) (ops : List (Op D H)) (h : ((World.init s0 srv).run ops).dead = true) :
    ∃ (p : Nat) (i : Nat) (q : Request D) (env : Env D H), ops[p]? = some (.serve i env) ∧
      ((World.init s0 srv).run (ops.take p)).net.b.jobs[i]? = some q ∧ (dispatch env ((World.init s0 srv).run (ops.take p)).srv q).1 = .escaped := by
  induction ops using snoc_induction with
  | h0 => cases h
  | h1 ops op ih =>
    by_cases hd : ((World.init s0 srv).run ops).dead = true
    · obtain ⟨p, i, q, env, h1, h2⟩ := ih hd
      have hlt := (List.getElem?_eq_some_iff.1 h1).1
      refine ⟨p, i, q, env, by rw [List.getElem?_append_left hlt]; exact h1, ?_⟩
      rw [List.take_append_of_le_length (Nat.le_of_lt hlt)]
      exact h2
    · rw [run_snoc] at h
      have hlast : (ops ++ [op])[ops.length]? = some op := by simp
      have htake : (ops ++ [op]).take ops.length = ops := by simp
      generalize hw : (World.init s0 srv).run ops = w at h hd
      cases op with
      | serve i env =>
        simp only [World.step] at h
        split at h
        · exact absurd h hd
        · dsimp only [World.act] at h
          unfold World.serve at h
          split at h
          · exact absurd h hd
          · rename_i q hj
            cases he : (dispatch env w.srv q).1 with
            | answer r => rw [he] at h; exact absurd h hd
            | blocked => rw [he] at h; exact absurd h hd
            | escaped => exact ⟨ops.length, i, q, env, hlast, by rw [htake, hw]; exact hj, by rw [htake, hw]; exact he⟩
      | go i => simp only [World.step] at h; rw [if_neg hd] at h; simp only [World.act, World.go] at h; split at h <;> (try split at h) <;> exact absurd h hd
      | deliver n => simp only [World.step] at h; rw [if_neg hd] at h; simp only [World.act, World.deliver] at h; split at h <;> (try split at h) <;> exact absurd h hd
      | wire op => simp only [World.step] at h; rw [if_neg hd] at h; simp only [World.act] at h; split at h <;> exact absurd h hd
      | own op => simp only [World.step] at h; rw [if_neg hd] at h; cases op <;> exact absurd h hd
      | _ => simp only [World.step] at h; rw [if_neg hd] at h; exact absurd h hd

/-- C129, what ends the process: an exception that is not a `std::exception`, thrown while the server handled a request, ends it; nothing else does. -/
theorem C129_ended_by (s0 : Self D) (srv : Srv D H) (ops : List (Op D H)) :
    ((World.init s0 srv).run ops).dead = true ↔
    ∃ (p : Nat) (i : Nat) (q : Request D) (env : Env D H), ops[p]? = some (.serve i env) ∧
      ((World.init s0 srv).run (ops.take p)).net.b.jobs[i]? = some q ∧ (dispatch env ((World.init s0 srv).run (ops.take p)).srv q).1 = .escaped := by
  refine ⟨ended_by s0 srv ops, fun ⟨p, i, q, env, h1, h2, h3⟩ => ?_⟩
  have hdead : ((World.init s0 srv).run (ops.take (p + 1))).dead = true := by
    rw [List.take_succ, h1, Option.toList_some, run_snoc]
    generalize (World.init s0 srv).run (ops.take p) = w at h2 h3 ⊢
    simp only [World.step]
    split
    · rename_i hd; exact hd
    · simp only [World.act, World.serve, h2, h3]
  have hsplit : (World.init s0 srv).run ops = ((World.init s0 srv).run (ops.take (p + 1))).run (ops.drop (p + 1)) := by
    unfold World.run
    rw [← List.foldl_append, List.take_append_drop]
  rw [hsplit]
  exact (C129_gone  _ _ hdead).1

end Verif.Near
