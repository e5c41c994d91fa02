import Verif.Reach.Lemmas

/-!
C136, continued: a client process that was ended by an exception does nothing more, and nothing else ends it.
-/

namespace Verif.Reach

open Verif.Await Verif.Client Verif.Server
open Verif.Http (Hs HsOp LinkOp LinkCfg HtHandlers)
open Verif.Whole (snoc_induction)
open Verif.Ask (asRequest asking)

variable {D H : Type} [DblFmt D]

/-- What belongs to the client's process: its state, its transport, how many requests it has sent, the streams it opened, the events it took. -/
structure SameClient (w w' : World D H) : Prop where
  cli : w'.cli = w.cli
  ht : w'.link.ht = w.link.ht
  posts : w'.link.flights.map (fun f => (f.post, f.what, f.sent)) = w.link.flights.map (fun f => (f.post, f.what, f.sent))
  mine : w'.link.mine = w.link.mine
  taken : w'.link.taken = w.link.taken

theorem SameClient.refl (w : World D H) : SameClient w w := ⟨rfl, rfl, rfl, rfl, rfl⟩

theorem gone_step (c : LinkCfg) (w : World D H) (op : Op D H) (h : w.dead = true) : (w.step c op).dead = true ∧ SameClient w (w.step c op) := by
  have serve : ∀ i now a f n e d, SameClient w { w with link := w.link.step c (.serve i now a f n e d) } := by
    intro i now a f n e d
    simp only [Http.Link.step, Http.Link.serve]
    split
    · rename_i k p b hfl
      refine ⟨rfl, rfl, ?_, rfl, rfl⟩
      dsimp only
      rw [List.map_set]
      refine List.ext_getElem? fun j => ?_
      rw [List.getElem?_set]
      split
      · rename_i hj
        subst hj
        have hlt := (List.getElem?_eq_some_iff.1 hfl).1
        rw [if_pos (by simpa using hlt), List.getElem?_map, hfl]
        rfl
      · rfl
    · exact .refl w
  cases op with
  | call api => exact ⟨h, rfl, rfl, rfl, rfl, rfl⟩
  | go i =>
    simp only [World.step, World.go]
    split
    · split <;> exact ⟨h, rfl, rfl, rfl, rfl, rfl⟩
    · exact ⟨h, rfl, rfl, rfl, rfl, rfl⟩
  | drop i => exact ⟨h, rfl, rfl, rfl, rfl, rfl⟩
  | change u => exact ⟨h, rfl, rfl, rfl, rfl, rfl⟩
  | deliver n =>
    simp only [World.step, World.deliver]
    split
    · split <;> exact ⟨h, rfl, rfl, rfl, rfl, rfl⟩
    · exact ⟨h, rfl, rfl, rfl, rfl, rfl⟩
  | wire op =>
    simp only [World.step]
    cases op with
    | serve i now a f n e d => exact ⟨h, serve i now a f n e d⟩
    | world op => exact ⟨h, rfl, rfl, rfl, rfl, rfl⟩
    | _ => rw [if_pos (by simp [isEvent, ofClient, h])]; exact ⟨h, .refl w⟩
  | heed j env n e => simp only [World.step]; rw [if_pos h]; exact ⟨h, .refl w⟩
  | own op => cases op <;> simp only [World.step] <;> (try rw [if_pos h]) <;> exact ⟨h, .refl w⟩

/-- C136, the client's process: once it has been ended it does nothing more. Its state stays, its transport sends nothing, opens no stream and takes no event, whatever is done to the server
and to the connections. -/
theorem C136_gone (c : LinkCfg) (w : World D H) (ops : List (Op D H)) (h : w.dead = true) : (w.run c ops).dead = true ∧ SameClient w (w.run c ops) := by
  induction ops using snoc_induction with
  | h0 => exact ⟨h, .refl w⟩
  | h1 ops op ih =>
    rw [run_snoc]
    obtain ⟨h1, h2⟩ := ih
    obtain ⟨h3, h4⟩ := gone_step c _ op h1
    exact ⟨h3, h4.cli.trans h2.cli, h4.ht.trans h2.ht, h4.posts.trans h2.posts, h4.mine.trans h2.mine, h4.taken.trans h2.taken⟩

theorem ended_by (c : LinkCfg) (s0 : SSelf D) (cli : Cli D H) (ops : List (Op D H)) (h : ((World.init s0 cli).run c ops).dead = true) :
    ∃ (p j : Nat) (env : CliEnv D H) (n e : Bool) (payload : Bytes) (q : Request D), ops[p]? = some (.heed j env n e) ∧
      heard ((World.init s0 cli).run c (ops.take p)).link j = some payload ∧ asked n e payload = some q ∧
      (onRequest env ((World.init s0 cli).run c (ops.take p)).cli q).1 = .escaped := by
  induction ops using snoc_induction with
  | h0 => cases h
  | h1 ops op ih =>
    by_cases hd : ((World.init s0 cli).run c ops).dead = true
    · obtain ⟨p, j, env, n, e, payload, q, h1, h2, h3, h4⟩ := ih hd
      have hlt := (List.getElem?_eq_some_iff.1 h1).1
      refine ⟨p, j, env, n, e, payload, q, by rw [List.getElem?_append_left hlt]; exact h1, ?_⟩
      rw [List.take_append_of_le_length (Nat.le_of_lt hlt)]
      exact ⟨h2, h3, h4⟩
    · rw [run_snoc] at h
      have hlast : (ops ++ [op])[ops.length]? = some op := by simp
      have htake : (ops ++ [op]).take ops.length = ops := by simp
      generalize hw : (World.init s0 cli).run c ops = w at h hd
      cases op with
      | heed j env n e =>
        simp only [World.step] at h
        split at h
        · exact absurd h hd
        · unfold World.heed at h
          cases hp : heard w.link j with
          | none => rw [hp] at h; exact absurd h hd
          | some payload =>
            rw [hp] at h
            dsimp only at h
            cases hq : (asked n e payload : Option (Request D)) with
            | none => rw [hq] at h; exact absurd h hd
            | some q =>
              rw [hq] at h
              dsimp only at h
              cases he : (onRequest env w.cli q).1 with
              | answer r => rw [he] at h; exact absurd h hd
              | blocked => rw [he] at h; exact absurd h hd
              | escaped => exact ⟨ops.length, j, env, n, e, payload, q, hlast, by rw [htake, hw]; exact hp, hq, by rw [htake, hw]; exact he⟩
      | go i => simp only [World.step, World.go] at h; split at h <;> (try split at h) <;> exact absurd h hd
      | deliver n => simp only [World.step, World.deliver] at h; split at h <;> (try split at h) <;> exact absurd h hd
      | wire op => simp only [World.step] at h; split at h <;> exact absurd h hd
      | own op => cases op <;> simp only [World.step] at h <;> (try split at h) <;> exact absurd h hd
      | _ => exact absurd h hd

/-- C136, what ends the client's process: an exception that is not a `std::exception`, thrown by a handler of the client while it handled a request the server sent, ends it; nothing else
does. -/
theorem C136_ended_by (c : LinkCfg) (s0 : SSelf D) (cli : Cli D H) (ops : List (Op D H)) :
    ((World.init s0 cli).run c ops).dead = true ↔
    ∃ (p j : Nat) (env : CliEnv D H) (n e : Bool) (payload : Bytes) (q : Request D), ops[p]? = some (.heed j env n e) ∧
      heard ((World.init s0 cli).run c (ops.take p)).link j = some payload ∧ asked n e payload = some q ∧
      (onRequest env ((World.init s0 cli).run c (ops.take p)).cli q).1 = .escaped := by
  refine ⟨ended_by c s0 cli ops, fun ⟨p, j, env, n, e, payload, q, h1, h2, h3, h4⟩ => ?_⟩
  have hlt := (List.getElem?_eq_some_iff.1 h1).1
  have hdead : ((World.init s0 cli).run c (ops.take (p + 1))).dead = true := by
    rw [List.take_succ, h1, Option.toList_some, run_snoc]
    generalize (World.init s0 cli).run c (ops.take p) = w at h2 h4 ⊢
    simp only [World.step]
    split
    · rename_i hd; exact hd
    · simp only [World.heed, h2, h3, h4]
  have hsplit : (World.init s0 cli).run c ops = ((World.init s0 cli).run c (ops.take (p + 1))).run c (ops.drop (p + 1)) := by
    unfold World.run
    rw [← List.foldl_append, List.take_append_drop]
  rw [hsplit]
  exact (C136_gone c _ _ hdead).1

end Verif.Reach
