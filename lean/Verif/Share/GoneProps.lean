import Verif.Share.Lemmas

/-!
C133, continued: a server process that was ended by an exception does nothing more, and nothing else ends it.
-/

namespace Verif.Share

open Verif.Await Verif.Client Verif.Server Verif.Shm
open Verif.Whole (asRequest asking snoc_induction lt_of_get paths_step cells_step cells_other go_quiet go_asks RunFor dispatch_runs own_runs)
open Verif.Stdio (idText)
open Verif.Duplex (get_prefix)
open Verif.InMemory (PlainReq PlainNote PlainOut)

variable {D H : Type} [DblFmt D]

theorem peer_step (c : Cfg) (x : Bool) (s : Net D) (op : NOp D) (h : actor op = x) :
    ∃ more, (s.step c op).get (!x) = { s.get (!x) with queue := (s.get (!x)).queue ++ more } := by
  have same : ∀ {e : Endpoint D}, e = s.get (!x) → ∃ more, e = { s.get (!x) with queue := (s.get (!x)).queue ++ more } := fun he => ⟨[], by rw [he, List.append_nil]⟩
  have push : ∀ (s' : Net D) (text : Bytes), s'.get (!x) = s.get (!x) → ∃ more, (s'.push x text).get (!x) = { s.get (!x) with queue := (s.get (!x)).queue ++ more } := by
    intro s' text hs
    refine ⟨[text], ?_⟩
    unfold Net.push
    rw [get_upd_same, get_upd_not, hs]
  have put : ∀ text, ∃ more, (s.put c x text).get (!x) = { s.get (!x) with queue := (s.get (!x)).queue ++ more } := by
    intro text
    unfold Net.put
    split
    · exact push s text rfl
    · exact same rfl
  cases op with
  | start y =>
    cases h
    refine same ?_
    cases y <;> simp only [Net.step, Net.start, actor] <;> split <;> rfl
  | send y r => cases h; exact same (get_upd_not _ _ _)
  | file y i => cases h; exact same (get_upd_not _ _ _)
  | deliver y i =>
    cases h
    simp only [Net.step, Net.deliver, actor] at push ⊢
    split
    · exact same rfl
    · split
      · exact push _ _ (get_upd_not _ _ _)
      · exact same (by rw [get_upd_not, get_upd_not]; rfl)
  | notify y n => cases h; exact put _
  | take y => cases h; exact same (get_upd_not _ _ _)
  | handle y => cases h; exact same (get_upd_not _ _ _)
  | reply y i out =>
    cases h
    simp only [Net.step, Net.reply, actor] at push ⊢
    split
    · exact same rfl
    · split
      · exact push _ _ (get_upd_not _ _ _)
      · exact same (get_upd_not _ _ _)
  | loopEnd y => cases h; exact same (get_upd_not _ _ _)
  | closeTell => cases h; exact put _
  | closeFlag y => cases h; exact same (get_upd_not _ _ _)
  | closeEnd y =>
    cases h
    refine same ?_
    simp only [Net.step, Net.closeEnd, actor]
    split
    · rfl
    · cases y <;> rfl
  | tick y => cases h; exact same (get_upd_not _ _ _)

theorem gone_step (c : Cfg) (x : Bool) (w : World D H) (op : Op D H) (hd : w.dead = true) :
    (w.step c x op).dead = true ∧ (w.step c x op).srv = w.srv ∧
      ∃ more, (w.step c x op).net.get (!x) = { w.net.get (!x) with queue := (w.net.get (!x)).queue ++ more } := by
  have same : ∃ more, w.net.get (!x) = { w.net.get (!x) with queue := (w.net.get (!x)).queue ++ more } := ⟨[], by rw [List.append_nil]⟩
  cases op with
  | go i =>
    simp only [World.step, World.go]
    split
    · split
      · split <;> exact ⟨hd, rfl, peer_step c x _ _ rfl⟩
      · exact ⟨hd, rfl, same⟩
    · exact ⟨hd, rfl, same⟩
  | deliver n =>
    simp only [World.step, World.deliver]
    split
    · split <;> exact ⟨hd, rfl, same⟩
    · exact ⟨hd, rfl, same⟩
  | file i =>
    simp only [World.step, World.file]
    split
    · exact ⟨hd, rfl, peer_step c x _ _ rfl⟩
    · exact ⟨hd, rfl, same⟩
  | wire op =>
    simp only [World.step]
    split
    · exact ⟨hd, rfl, same⟩
    · rename_i h
      exact ⟨hd, rfl, peer_step c x _ op (by simp [hd] at h; exact h.2)⟩
  | serve i env => simp only [World.step]; rw [if_pos hd]; exact ⟨hd, rfl, same⟩
  | own op => simp only [World.step]; rw [if_pos hd]; exact ⟨hd, rfl, same⟩
  | _ => exact ⟨hd, rfl, same⟩

/-- C133, the server's process: once it has been ended it does nothing more. Its state stays, and its transport takes nothing, answers nothing and sends nothing; messages that are sent to it
stay in their queue. -/
theorem C133_gone (c : Cfg) (x : Bool) (w : World D H) (ops : List (Op D H)) (h : w.dead = true) :
    (w.run c x ops).dead = true ∧ (w.run c x ops).srv = w.srv ∧
      ∃ more, (w.run c x ops).net.get (!x) = { w.net.get (!x) with queue := (w.net.get (!x)).queue ++ more } := by
  induction ops using snoc_induction with
  | h0 => exact ⟨h, rfl, [], by rw [List.append_nil]; rfl⟩
  | h1 ops op ih =>
    rw [run_snoc]
    obtain ⟨g1, g2, more, g3⟩ := ih
    obtain ⟨h1, h2, more', h3⟩ := gone_step c x _ op g1
    exact ⟨h1, h2.trans g2, more ++ more', by rw [h3, g3, List.append_assoc]⟩

theorem ended_by (c : Cfg) (x : Bool) (s0 : Self D) (srv : Srv D H) (ops : List (Op D H)) (h : ((World.init c s0 srv).run c x ops).dead = true) :
    ∃ (p : Nat) (i : Nat) (q : Request D) (env : Env D H), ops[p]? = some (.serve i env) ∧
      (((World.init c s0 srv).run c x (ops.take p)).net.get (!x)).jobs[i]? = some q ∧ (dispatch env ((World.init c s0 srv).run c x (ops.take p)).srv q).1 = .escaped := by
  induction ops using snoc_induction with
  | h0 => cases h
  | h1 ops op ih =>
    by_cases hd : ((World.init c s0 srv).run c x ops).dead = true
    · obtain ⟨p, i, q, env, h1, h2⟩ := ih hd
      have hlt := (List.getElem?_eq_some_iff.1 h1).1
      refine ⟨p, i, q, env, by rw [List.getElem?_append_left hlt]; exact h1, ?_⟩
      rw [List.take_append_of_le_length (Nat.le_of_lt hlt)]
      exact h2
    · rw [run_snoc] at h
      have hlast : (ops ++ [op])[ops.length]? = some op := by simp
      have htake : (ops ++ [op]).take ops.length = ops := by simp
      generalize hw : (World.init c s0 srv).run c x ops = w at h hd
      cases op with
      | serve i env =>
        simp only [World.step] at h
        split at h
        · exact absurd h hd
        · unfold World.serve at h
          split at h
          · exact absurd h hd
          · rename_i q hj
            cases he : (dispatch env w.srv q).1 with
            | answer r => rw [he] at h; exact absurd h hd
            | blocked => rw [he] at h; exact absurd h hd
            | escaped => exact ⟨ops.length, i, q, env, hlast, by rw [htake, hw]; exact hj, by rw [htake, hw]; exact he⟩
      | go i => simp only [World.step, World.go] at h; split at h <;> (try split at h) <;> (try split at h) <;> exact absurd h hd
      | deliver n => simp only [World.step, World.deliver] at h; split at h <;> (try split at h) <;> exact absurd h hd
      | file i => simp only [World.step, World.file] at h; split at h <;> exact absurd h hd
      | wire op => simp only [World.step] at h; split at h <;> exact absurd h hd
      | own op => cases op <;> simp only [World.step] at h <;> split at h <;> exact absurd h hd
      | _ => exact absurd h hd

/-- C133, what ends the server's process: an exception that is not a `std::exception`, thrown while the server handled a request, ends it; nothing else does. -/
theorem C133_ended_by (c : Cfg) (x : Bool) (s0 : Self D) (srv : Srv D H) (ops : List (Op D H)) :
    ((World.init c s0 srv).run c x ops).dead = true ↔
    ∃ (p : Nat) (i : Nat) (q : Request D) (env : Env D H), ops[p]? = some (.serve i env) ∧
      (((World.init c s0 srv).run c x (ops.take p)).net.get (!x)).jobs[i]? = some q ∧ (dispatch env ((World.init c s0 srv).run c x (ops.take p)).srv q).1 = .escaped := by
  refine ⟨ended_by c x s0 srv ops, fun ⟨p, i, q, env, h1, h2, h3⟩ => ?_⟩
  have hdead : ((World.init c s0 srv).run c x (ops.take (p + 1))).dead = true := by
    rw [List.take_succ, h1, Option.toList_some, run_snoc]
    generalize (World.init c s0 srv).run c x (ops.take p) = w at h2 h3 ⊢
    simp only [World.step]
    split
    · rename_i hd; exact hd
    · simp only [World.serve, h2, h3]
  have hsplit : (World.init c s0 srv).run c x ops = ((World.init c s0 srv).run c x (ops.take (p + 1))).run c x (ops.drop (p + 1)) := by
    unfold World.run
    rw [← List.foldl_append, List.take_append_drop]
  rw [hsplit]
  exact (C133_gone c x _ _ hdead).1

end Verif.Share
