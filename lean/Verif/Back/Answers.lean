import Verif.Back.Lemmas

/-! Helper lemmas for C134: the answers of the client. -/

set_option linter.unusedSectionVars false

namespace Verif.Back

open Verif.Await Verif.Client Verif.Server Verif.Shm
open Verif.Whole (snoc_induction lt_of_get)
open Verif.Ask (asRequest asking paths_step cells_step cells_other go_quiet go_asks)
open Verif.Share (NOp seen actor reserved calm_step Idle idle_step idle_run reply_own fits_length)
open Verif.Stdio (idText)
open Verif.Duplex (get_prefix)
open Verif.InMemory (PlainReq PlainNote PlainOut)

variable {D H : Type} [DblFmt D]

/-- With the step at this place of the execution the server dispatched this request, in the state it was in, with this answer. -/
def DispatchedAt (c : Cfg) (x : Bool) (w : World D H) (ops : List (Op D H)) (p : Nat) (q : Request D) (env : CliEnv D H) (cli : Cli D H) (r : Response D) : Prop :=
  ∃ i, ops[p]? = some (.serve i env) ∧ ((w.run c x (ops.take p)).net.get (!x)).jobs[i]? = some q ∧ (w.run c x (ops.take p)).cli = cli ∧
    (w.run c x (ops.take p)).dead = false ∧ (onRequest env cli q).1 = .answer r

theorem DispatchedAt.more {c : Cfg} {x : Bool} {w : World D H} {ops : List (Op D H)} {p : Nat} {q : Request D} {env : CliEnv D H} {cli : Cli D H} {r : Response D}
    (h : DispatchedAt c x w ops p q env cli r) (op : Op D H) : DispatchedAt c x w (ops ++ [op]) p q env cli r := by
  obtain ⟨i, h1, h2⟩ := h
  have hl := lt_of_get h1
  refine ⟨i, by rw [List.getElem?_append_left hl]; exact h1, ?_⟩
  rw [List.take_append_of_le_length (Nat.le_of_lt hl)]
  exact h2

theorem dispatched_last {c : Cfg} {x : Bool} {w : World D H} {ops : List (Op D H)} {i : Nat} {env : CliEnv D H} {q : Request D} {r : Response D}
    (hj : ((w.run c x ops).net.get (!x)).jobs[i]? = some q) (hd : (w.run c x ops).dead = false) (hr : (onRequest env (w.run c x ops).cli q).1 = .answer r) :
    DispatchedAt c x w (ops ++ [.serve i env]) ops.length q env (w.run c x ops).cli r := by
  have ht : (ops ++ [Op.serve i env]).take ops.length = ops := by simp
  refine ⟨i, by simp, ?_⟩
  rw [ht]
  exact ⟨hj, rfl, hd, hr⟩

/-- The server's side answers in `serve` alone. -/
theorem netOps_reply {x : Bool} {w : World D H} {op : Op D H} {j : Nat} {o : HandlerOutcome D} (hn : Shm.Op.reply (!x) j o ∈ netOps x w op) :
    w.dead = false ∧ ∃ i env, op = .serve i env := by
  unfold netOps at hn
  cases op with
  | go i =>
    simp only [netOf] at hn
    split at hn
    · split at hn
      · cases List.mem_singleton.1 (show _ ∈ [_] from hn)
      · cases hn
    · cases hn
  | file i =>
    simp only [netOf] at hn
    split at hn
    · cases List.mem_singleton.1 (show _ ∈ [_] from hn)
    · cases hn
  | wire op =>
    simp only [netOf] at hn
    split at hn
    · cases hn
    · rename_i hr
      have := List.mem_singleton.1 (show _ ∈ [_] from hn)
      subst this
      exact absurd (by cases x <;> rfl) hr
  | serve i env =>
    simp only [netOf] at hn
    split at hn
    · cases hn
    · rename_i hd; exact ⟨by simpa using hd, i, env, rfl⟩
  | call api => cases hn
  | drop i => cases hn
  | change u => cases hn
  | deliver n => cases hn
  | own op => cases hn

/-- The answers of the server are changed by `serve` alone. -/
theorem answered_step (c : Cfg) (x : Bool) (w : World D H) (op : Op D H) : ((w.step c x op).net.get (!x)).answered = (w.net.get (!x)).answered ∨
    ∃ i env q r, op = .serve i env ∧ w.dead = false ∧ (w.net.get (!x)).jobs[i]? = some q ∧ (onRequest env w.cli q).1 = .answer r ∧
      (w.step c x op).cli = (onRequest env w.cli q).2 ∧ (w.step c x op).dead = false ∧
      ((w.step c x op).net.get (!x)).answered = (w.net.get (!x)).answered ++ [(q, .resp r, w.net.fits c (!x) (serResponse (replyFor q (.resp r))))] := by
  cases op with
  | call api => exact .inl rfl
  | drop i => exact .inl rfl
  | change u => exact .inl rfl
  | go i =>
    left
    rw [net_step]
    refine (idle_run c (!x) _ _ fun nop hn j o e => ?_).1
    subst e
    obtain ⟨-, k, env, h⟩ := netOps_reply hn
    cases h
  | file i =>
    simp only [World.step, World.file]
    split
    · exact .inl (idle_step c w.net (.file x i) (!x) (fun j o e => nomatch e)).1
    · exact .inl rfl
  | deliver n =>
    simp only [World.step, World.deliver]
    split
    · split <;> exact .inl rfl
    · exact .inl rfl
  | wire op =>
    simp only [World.step]
    split
    · exact .inl rfl
    · rename_i hr
      exact .inl (idle_step c w.net op (!x) fun i o e => hr (by rw [e]; cases x <;> rfl)).1
  | own op => left; simp only [World.step]; split <;> (try split) <;> rfl
  | serve i env =>
    cases hd : w.dead with
    | true => left; simp [World.step, hd]
    | false =>
    simp only [World.step, World.serve, hd, Bool.false_eq_true, if_false]
    cases hj : (w.net.get (!x)).jobs[i]? with
    | none => exact .inl rfl
    | some q =>
      cases hr : (onRequest env w.cli q).1 with
      | answer r =>
        right
        refine ⟨i, env, q, r, rfl, trivial, hj, hr, ?_, ?_, ?_⟩
        · dsimp only; rw [hr]
        · dsimp only; rw [hr]
        · dsimp only; rw [hr]; exact reply_own c w.net (!x) i _ hj
      | escaped => left; dsimp only; rw [hr]
      | blocked => left; dsimp only; rw [hr]

theorem answered_world (c : Cfg) (x : Bool) (s0 : SSelf D) (cli : Cli D H) (ops : List (Op D H)) (q : Request D) (o : HandlerOutcome D) (ok : Bool)
    (h : (q, o, ok) ∈ (((World.init c s0 cli).run c x ops).net.get (!x)).answered) :
    ∃ p env σ r, o = .resp r ∧ DispatchedAt c x (World.init c s0 cli) ops p q env σ r ∧
      (ok = true → (serResponse (replyFor q o)).length ≤ c.size (!x) ∧ (serResponse (replyFor q o)).length ≤ c.sizeA) := by
  induction ops using snoc_induction with
  | h0 =>
    have h0 : (((World.init c s0 cli : World D H).net).get (!x)).answered = [] := by cases x <;> rfl
    rw [run_nil, h0] at h; cases h
  | h1 ops op ih =>
    rw [run_snoc] at h
    rcases answered_step c x ((World.init c s0 cli).run c x ops) op with h1 | ⟨i, env, q', r, rfl, h1, h2, h3, -, -, h4⟩
    · rw [h1] at h
      obtain ⟨p, env, σ, r, h2, h3, h4⟩ := ih h
      exact ⟨p, env, σ, r, h2, h3.more op, h4⟩
    · rw [h4] at h
      rcases List.mem_append.1 h with h | h
      · obtain ⟨p, env', σ, r, h2, h3, h4⟩ := ih h
        exact ⟨p, env', σ, r, h2, h3.more _, h4⟩
      · cases List.mem_singleton.1 h
        exact ⟨ops.length, env, _, r, rfl, dispatched_last h2 h1 h3, fun hf => fits_length hf⟩

end Verif.Back
