import Verif.Web.Props
import Verif.Whole.TaskLemmas

/-!
C131: what a client is given for a task over HTTP.
-/

namespace Verif.Web

open Verif.Await Verif.Client Verif.Server Verif.Http
open Verif.Whole (Delivered task_way question_task says_created says_result error_created error_result)

variable {D H : Type} [DblFmt D]

/-- What a step does to the server. -/
def srvOps (c : LinkCfg) (w : World D H) (op : Op D H) : List (SrvOp D H) :=
  match op with
  | .serve i now a env n e d =>
    match w.served c i now a env n e d with
    | none => []
    | some out =>
      match out.handled with
      | [] => []
      | (q, _) :: _ => match (dispatch env w.srv q).1 with | .blocked => [] | _ => [.request env q]
  | .own op => [op]
  | _ => []

theorem srvOps_step (c : LinkCfg) (w : World D H) (op : Op D H) : (w.step c op).srv = w.srv.run (srvOps c w op) := by
  unfold srvOps
  cases op with
  | call api => rfl
  | go i =>
    simp only [World.step, World.go]
    split
    · split <;> rfl
    · rfl
  | drop i => rfl
  | change u => rfl
  | deliver n =>
    simp only [World.step, World.deliver]
    split
    · split <;> rfl
    · rfl
  | wire nop =>
    cases nop <;> simp only [World.step, World.wire] <;> try rfl
    simp only [World.file]
    split <;> rfl
  | serve i now a env n e d =>
    simp only [World.step, World.serve]
    cases hs : w.served c i now a env n e d with
    | none => rfl
    | some out =>
      simp only
      cases hh : out.handled with
      | nil => rfl
      | cons q rest =>
        obtain ⟨q, tok⟩ := q
        cases ho : (dispatch env w.srv q).1 <;> simp only [ho] <;> rfl
  | own sop => rfl

theorem srvOps_length (c : LinkCfg) (w : World D H) (op : Op D H) : (srvOps c w op).length ≤ 1 := by
  unfold srvOps
  split
  · split
    · exact Nat.zero_le _
    · split
      · exact Nat.zero_le _
      · split
        · exact Nat.zero_le _
        · exact Nat.le_refl _
  · exact Nat.le_refl _
  · exact Nat.zero_le _

theorem srvOps_worker {c : LinkCfg} {w : World D H} {op : Op D H} {e : Env D H} {n : Nat} (h : srvOps c w op = [.worker e n]) : op = .own (.worker e n) := by
  unfold srvOps at h
  split at h
  · split at h
    · cases h
    · split at h
      · cases h
      · split at h <;> cases h
  · cases h; rfl
  · cases h

theorem srvOps_dispatched {c : LinkCfg} {w : World D H} {ops : List (Op D H)} {p : Nat} {q : Request D} {env : Env D H} {σ : Srv D H} {r : Response D}
    (h : DispatchedAt c w ops p q env σ (.answer r)) : ∃ op, ops[p]? = some op ∧ srvOps c (w.run c (ops.take p)) op = [.request env q] ∧ (w.run c (ops.take p)).srv = σ ∧
      (dispatch env (w.run c (ops.take p)).srv q).1 = .answer r := by
  obtain ⟨i, now, a, n, e, d, out, tok, rest, h1, h2, h3, rfl, h5⟩ := h
  refine ⟨_, h1, ?_, rfl, h5⟩
  simp [srvOps, h2, h3, h5]

/-- C131, partial. Over HTTP, whatever other clients ask of the server, if `CallToolTask` gave a task and `GetTaskResult` for the id of that task gave a value that is not an error, then a
worker of the server came to its end between the dispatches of the two requests, having run the handler that was registered under the name of the tool when the first was dispatched,
on exactly the arguments of the call, and the value is what the handler returned, with the metadata that names the task. Missing: as for `C116_result_partial`. -/
theorem C131_http_partial (c : LinkCfg) (s0 : Self D) (name : Bytes) (setup : List (SrvOp D H)) (ops : List (Op D H))
    (hc : Carried c (World.init s0 ((Srv.init name).run setup)) ops) :
    let w0 := World.init s0 ((Srv.init name).run setup)
    let w := w0.run c ops
    w.slots.length < 2 ^ 32 → setup.length + ops.length + 1 < 2 ^ 64 →
      ∀ (i j : Nat) (x y : CCall D) (tool : Bytes) (args : JVal D) (ttl : Option Int) (t : Tasks.Task) (m : Option (JVal D)) (v : JVal D),
      w.client.calls[i]? = some x → x.prog = body (.callToolTask tool args ttl) → x.st = .over (some (.created t m)) →
      w.client.calls[j]? = some y → y.prog = body (.taskResult t.taskId) → y.st = .over (some (.json v)) →
        isErrorObject v = true ∨ ∃ p k p' env env' q q' o o' e n h res, p < k ∧ k < p' ∧ DispatchedAt c w0 ops p q env (w0.run c (ops.take p)).srv o ∧
          DispatchedAt c w0 ops p' q' env' (w0.run c (ops.take p')).srv o' ∧ ops[k]? = some (.own (.worker e n)) ∧
          AMap.get (w0.run c (ops.take p)).srv.reg.toolHandlers tool = some h ∧ e.tool h args = .ret res ∧ Delivered t.taskId res v := by
  intro w0 w few few2 i j x y tool args ttl t m v hx hxp hxs hy hyp hys
  obtain ⟨l, hinv, -⟩ := traced c s0 _ ops hc few
  rcases result_of c s0 _ ops hc few hinv i x _ _ hx hxp hxs with ⟨k, d, s', h, -⟩ | ⟨o, kind, ⟨id, text, -, rfl⟩, h2⟩ | ⟨p, id, env, σ, r, kind, h1, h2, -⟩
  · cases h
  · exact absurd (says_created h2) (fun h => error_created h)
  rcases result_of c s0 _ ops hc few hinv j y _ _ hy hyp hys with ⟨k, d, s', h, -⟩ | ⟨o, kind, ⟨id, text, -, rfl⟩, g2⟩ | ⟨p', id', env', σ', r', kind', g1, g2, -⟩
  · cases h
  · exact .inl (error_result (says_result g2))
  rw [question_task] at h1
  obtain ⟨op, e1, e2, e3, e4⟩ := srvOps_dispatched h1
  obtain ⟨op', f1, f2, f3, f4⟩ := srvOps_dispatched g1
  rcases task_way (step := World.step c) (f := srvOps c) (srv := World.srv) (srvOps_step c) (srvOps_length c) (w := w0) (rfl : w0.srv = (Srv.init name).run setup) (ops := ops) few2
    e1 e2 e4 (says_created h2) f1 f2 f4 (says_result g2) with h | ⟨k, o, e, n, h, res, k1, k2, k3, k4, k5, k6, k7⟩
  · exact .inl h
  · have := srvOps_worker k4
    subst this
    rw [← e3] at h1
    rw [← f3] at g1
    exact .inr ⟨p, k, p', env, env', _, _, _, _, e, n, h, res, k1, k2, h1, g1, k3, k5, k6, k7⟩

end Verif.Web
