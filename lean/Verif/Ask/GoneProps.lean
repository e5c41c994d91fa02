import Verif.Ask.Lemmas

/-!
C130, continued: what ends the process of server and client, and that nothing happens afterwards.
-/

namespace Verif.Ask

open Verif.Await Verif.Client Verif.Server Verif.InMemory
open Verif.Whole (snoc_induction lt_of_get)
open Verif.Near (NOp seen reserved Grows grows_run Numbered numbered_run get_grows asked_other answered_other reply_b)
open Verif.Stdio (idText)
open Verif.Duplex (get_prefix)

variable {D H : Type} [DblFmt D]

/-- C130, the process of both: once it has been ended nothing happens any more. -/
theorem C130_gone (w : World D H) (ops : List (Op D H)) (h : w.dead = true) : (w.run ops).dead = true ∧ w.run ops = w := by
  induction ops using snoc_induction with
  | h0 => exact ⟨h, rfl⟩
  | h1 ops op ih =>
    rw [run_snoc, ih.2]
    unfold World.step
    rw [if_pos h]
    exact ⟨h, rfl⟩

theorem ended_by (s0 : SSelf D) (cli : Cli D H) (ops : List (Op D H)) (h : ((World.init s0 cli).run ops).dead = true) :
    ∃ (p : Nat) (i : Nat) (q : Request D) (env : CliEnv D H), ops[p]? = some (.serve i env) ∧
      ((World.init s0 cli).run (ops.take p)).net.b.jobs[i]? = some q ∧ (onRequest env ((World.init s0 cli).run (ops.take p)).cli q).1 = .escaped := by
  induction ops using snoc_induction with
  | h0 => cases h
  | h1 ops op ih =>
    by_cases hd : ((World.init s0 cli).run ops).dead = true
    · obtain ⟨p, i, q, env, h1, h2⟩ := ih hd
      have hlt := (List.getElem?_eq_some_iff.1 h1).1
      refine ⟨p, i, q, env, by rw [List.getElem?_append_left hlt]; exact h1, ?_⟩
      rw [List.take_append_of_le_length (Nat.le_of_lt hlt)]
      exact h2
    · rw [run_snoc] at h
      have hlast : (ops ++ [op])[ops.length]? = some op := by simp
      have htake : (ops ++ [op]).take ops.length = ops := by simp
      generalize hw : (World.init s0 cli).run ops = w at h hd
      cases op with
      | serve i env =>
        simp only [World.step] at h
        split at h
        · exact absurd h hd
        · dsimp only [World.act] at h
          unfold World.serve at h
          split at h
          · exact absurd h hd
          · rename_i q hj
            cases he : (onRequest env w.cli q).1 with
            | answer r => rw [he] at h; exact absurd h hd
            | blocked => rw [he] at h; exact absurd h hd
            | escaped => exact ⟨ops.length, i, q, env, hlast, by rw [htake, hw]; exact hj, by rw [htake, hw]; exact he⟩
      | go i => simp only [World.step] at h; rw [if_neg hd] at h; simp only [World.act, World.go] at h; split at h <;> (try split at h) <;> exact absurd h hd
      | deliver n => simp only [World.step] at h; rw [if_neg hd] at h; simp only [World.act, World.deliver] at h; split at h <;> (try split at h) <;> exact absurd h hd
      | wire op => simp only [World.step] at h; rw [if_neg hd] at h; simp only [World.act] at h; split at h <;> exact absurd h hd
      | own op => simp only [World.step] at h; rw [if_neg hd] at h; cases op <;> exact absurd h hd
      | _ => simp only [World.step] at h; rw [if_neg hd] at h; exact absurd h hd

/-- C130, what ends the process: an exception that is not a `std::exception`, thrown while the client handled a request, ends it; nothing else does. -/
theorem C130_ended_by (s0 : SSelf D) (cli : Cli D H) (ops : List (Op D H)) :
    ((World.init s0 cli).run ops).dead = true ↔
    ∃ (p : Nat) (i : Nat) (q : Request D) (env : CliEnv D H), ops[p]? = some (.serve i env) ∧
      ((World.init s0 cli).run (ops.take p)).net.b.jobs[i]? = some q ∧ (onRequest env ((World.init s0 cli).run (ops.take p)).cli q).1 = .escaped := by
  refine ⟨ended_by s0 cli ops, fun ⟨p, i, q, env, h1, h2, h3⟩ => ?_⟩
  have hdead : ((World.init s0 cli).run (ops.take (p + 1))).dead = true := by
    rw [List.take_succ, h1, Option.toList_some, run_snoc]
    generalize (World.init s0 cli).run (ops.take p) = w at h2 h3 ⊢
    simp only [World.step]
    split
    · rename_i hd; exact hd
    · simp only [World.act, World.serve, h2, h3]
  have hsplit : (World.init s0 cli).run ops = ((World.init s0 cli).run (ops.take (p + 1))).run (ops.drop (p + 1)) := by
    unfold World.run
    rw [← List.foldl_append, List.take_append_drop]
  rw [hsplit]
  exact (C130_gone  _ _ hdead).1

end Verif.Ask
