import Verif.Whole.Lemmas

/-!
C115, continued: a server process that was ended by an exception does nothing more, and nothing else ends it.
-/

namespace Verif.Whole

open Verif.Await Verif.Client Verif.Server Verif.Duplex Verif.Stdio
open Verif.Serve (Prog)
open Verif.InMemory (PlainReq PlainNote)

variable {D H : Type} [DblFmt D]

theorem gone_step (c : Cfg D) (w : World D H) (op : Op D H) (hd : w.dead = true) :
    (w.step c op).dead = true ∧ (w.step c op).pair.b = w.pair.b ∧ (w.step c op).srv = w.srv := by
  cases op with
  | go i =>
    simp only [World.step, World.go]
    split
    · split <;> exact ⟨hd, rfl, rfl⟩
    · exact ⟨hd, rfl, rfl⟩
  | deliver n =>
    simp only [World.step, World.deliver]
    split
    · split <;> exact ⟨hd, rfl, rfl⟩
    · exact ⟨hd, rfl, rfl⟩
  | wire y op =>
    simp only [World.step]
    split
    · exact ⟨hd, rfl, rfl⟩
    · rename_i h
      cases y with
      | false => exact ⟨hd, rfl, rfl⟩
      | true => simp [hd] at h
  | serve env => simp only [World.step]; rw [if_pos hd]; exact ⟨hd, rfl, rfl⟩
  | own op =>
    cases op with
    | request env q => exact ⟨hd, rfl, rfl⟩
    | _ => simp only [World.step]; rw [if_pos hd]; exact ⟨hd, rfl, rfl⟩
  | _ => exact ⟨hd, rfl, rfl⟩

/-- C115, the server's process: once it has been ended it does nothing more. Neither its state nor its transport changes: it reads nothing, answers nothing and writes nothing. -/
theorem C115_gone (c : Cfg D) (w : World D H) (ops : List (Op D H)) (h : w.dead = true) :
    (w.run c ops).dead = true ∧ (w.run c ops).pair.b = w.pair.b ∧ (w.run c ops).srv = w.srv := by
  induction ops using snoc_induction with
  | h0 => exact ⟨h, rfl, rfl⟩
  | h1 ops op ih =>
    rw [run_snoc]
    obtain ⟨h1, h2, h3⟩ := gone_step c _ op ih.1
    exact ⟨h1, h2.trans ih.2.1, h3.trans ih.2.2⟩

theorem ended_by (c : Cfg D) (s0 : Self D) (srv : Srv D H) (ops : List (Op D H)) (h : ((World.init s0 srv).run c ops).dead = true) :
    ∃ (p : Nat) (j : Duplex.Job D) (env : Env D H), ops[p]? = some (.serve env) ∧
      ((World.init s0 srv).run c (ops.take p)).pair.b.job = some j ∧ (dispatch env ((World.init s0 srv).run c (ops.take p)).srv j.req).1 = .escaped := by
  induction ops using snoc_induction with
  | h0 => cases h
  | h1 ops op ih =>
    by_cases hd : ((World.init s0 srv).run c ops).dead = true
    · obtain ⟨p, j, env, h1, h2⟩ := ih hd
      have hlt := (List.getElem?_eq_some_iff.1 h1).1
      refine ⟨p, j, env, by rw [List.getElem?_append_left hlt]; exact h1, ?_⟩
      rw [List.take_append_of_le_length (Nat.le_of_lt hlt)]
      exact h2
    · rw [run_snoc] at h
      have hlast : (ops ++ [op])[ops.length]? = some op := by simp
      have htake : (ops ++ [op]).take ops.length = ops := by simp
      generalize hw : (World.init s0 srv).run c ops = w at h hd
      cases op with
      | serve env =>
        simp only [World.step] at h
        split at h
        · exact absurd h hd
        · unfold World.serve at h
          split at h
          · exact absurd h hd
          · rename_i j hj
            cases he : (dispatch env w.srv j.req).1 with
            | answer r => rw [he] at h; exact absurd h hd
            | blocked => rw [he] at h; exact absurd h hd
            | escaped => exact ⟨ops.length, j, env, hlast, by rw [htake, hw]; exact hj, by rw [htake, hw]; exact he⟩
      | go i => simp only [World.step, World.go] at h; split at h <;> (try split at h) <;> exact absurd h hd
      | deliver n => simp only [World.step, World.deliver] at h; split at h <;> (try split at h) <;> exact absurd h hd
      | wire y op => simp only [World.step] at h; split at h <;> exact absurd h hd
      | own op => cases op <;> simp only [World.step] at h <;> (try split at h) <;> exact absurd h hd
      | _ => exact absurd h hd

/-- C115, what ends the server's process: an exception that is not a `std::exception`, thrown while the server handled a request, ends it; nothing else does. -/
theorem C115_ended_by (c : Cfg D) (s0 : Self D) (srv : Srv D H) (ops : List (Op D H)) :
    ((World.init s0 srv).run c ops).dead = true ↔
    ∃ (p : Nat) (j : Duplex.Job D) (env : Env D H), ops[p]? = some (.serve env) ∧
      ((World.init s0 srv).run c (ops.take p)).pair.b.job = some j ∧ (dispatch env ((World.init s0 srv).run c (ops.take p)).srv j.req).1 = .escaped := by
  refine ⟨ended_by c s0 srv ops, fun ⟨p, j, env, h1, h2, h3⟩ => ?_⟩
  have hdead : ((World.init s0 srv).run c (ops.take (p + 1))).dead = true := by
    rw [List.take_succ, h1, Option.toList_some, run_snoc]
    generalize (World.init s0 srv).run c (ops.take p) = w at h2 h3 ⊢
    simp only [World.step]
    split
    · rename_i hd; exact hd
    · simp only [World.serve, h2, h3]
  have hsplit : (World.init s0 srv).run c ops = ((World.init s0 srv).run c (ops.take (p + 1))).run c (ops.drop (p + 1)) := by
    unfold World.run
    rw [← List.foldl_append, List.take_append_drop]
  rw [hsplit]
  exact (C115_gone c _ _ hdead).1

end Verif.Whole
