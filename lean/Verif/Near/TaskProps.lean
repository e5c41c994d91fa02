import Verif.Near.Props
import Verif.Whole.TaskLemmas

/-!
C131: what a client is given for a task over the in-memory transport.
-/

namespace Verif.Near

open Verif.Await Verif.Client Verif.Server Verif.InMemory
open Verif.Whole (Delivered task_way question_task says_created says_result error_created error_result)

variable {D H : Type} [DblFmt D]

/-- What a step does to the server. -/
def srvOps (w : World D H) (op : Op D H) : List (SrvOp D H) :=
  if w.dead then [] else
  match op with
  | .serve i env =>
    match w.net.b.jobs[i]? with
    | none => []
    | some q => match (dispatch env w.srv q).1 with | .blocked => [] | _ => [.request env q]
  | .own (.request _ _) => []
  | .own op => [op]
  | _ => []

theorem srvOps_step (w : World D H) (op : Op D H) : (w.step op).srv = w.srv.run (srvOps w op) := by
  unfold World.step srvOps
  cases hd : w.dead
  · simp only [Bool.false_eq_true, if_false]
    cases op with
    | call api => rfl
    | go i =>
      simp only [World.act, World.go]
      split
      · split <;> rfl
      · rfl
    | drop i => rfl
    | change u => rfl
    | deliver n =>
      simp only [World.act, World.deliver]
      split
      · split <;> rfl
      · rfl
    | wire nop => simp only [World.act]; split <;> rfl
    | serve i env =>
      simp only [World.act, World.serve]
      cases hj : w.net.b.jobs[i]? with
      | none => rfl
      | some q => cases ho : (dispatch env w.srv q).1 <;> simp only [ho] <;> rfl
    | own sop => cases sop <;> rfl
  · rfl

theorem srvOps_length (w : World D H) (op : Op D H) : (srvOps w op).length ≤ 1 := by
  unfold srvOps
  split
  · exact Nat.zero_le _
  · split
    · split
      · exact Nat.zero_le _
      · split
        · exact Nat.zero_le _
        · exact Nat.le_refl _
    · exact Nat.zero_le _
    · exact Nat.le_refl _
    · exact Nat.zero_le _

theorem srvOps_worker {w : World D H} {op : Op D H} {e : Env D H} {n : Nat} (h : srvOps w op = [.worker e n]) : op = .own (.worker e n) := by
  unfold srvOps at h
  split at h
  · cases h
  · split at h
    · split at h
      · cases h
      · split at h <;> cases h
    · cases h
    · cases h; rfl
    · cases h

theorem srvOps_dispatched {w : World D H} {ops : List (Op D H)} {p : Nat} {q : Request D} {env : Env D H} {σ : Srv D H} {r : Response D}
    (h : DispatchedAt w ops p q env σ r) : ∃ op, ops[p]? = some op ∧ srvOps (w.run (ops.take p)) op = [.request env q] ∧ (w.run (ops.take p)).srv = σ ∧
      (dispatch env (w.run (ops.take p)).srv q).1 = .answer r := by
  obtain ⟨i, h1, h2, rfl, h4, h5⟩ := h
  refine ⟨_, h1, ?_, rfl, h5⟩
  simp [srvOps, h4, h2, h5]

/-- C131, partial. Over the in-memory transport, if `CallToolTask` gave a task and `GetTaskResult` for the id of that task gave a value that is not an error, then a worker of the server
came to its end between the dispatches of the two requests, having run the handler that was registered under the name of the tool when the first was dispatched, on exactly the
arguments of the call, and the value is what the handler returned, with the metadata that names the task. Missing: as for `C129_result_partial`. -/
theorem C131_memory_partial (s0 : Self D) (name : Bytes) (setup : List (SrvOp D H)) (ops : List (Op D H)) (hc : Carried (World.init s0 ((Srv.init name).run setup)) ops) :
    let w0 := World.init s0 ((Srv.init name).run setup)
    let w := w0.run ops
    w.client.cells.length < 2 ^ 32 → setup.length + ops.length + 1 < 2 ^ 64 →
      ∀ (i j : Nat) (x y : CCall D) (tool : Bytes) (args : JVal D) (ttl : Option Int) (t : Tasks.Task) (m : Option (JVal D)) (v : JVal D),
      w.client.calls[i]? = some x → x.prog = body (.callToolTask tool args ttl) → x.st = .over (some (.created t m)) →
      w.client.calls[j]? = some y → y.prog = body (.taskResult t.taskId) → y.st = .over (some (.json v)) →
        isErrorObject v = true ∨ ∃ p k p' a b env env' e n h res, p < k ∧ k < p' ∧ ops[p]? = some (.serve a env) ∧ ops[p']? = some (.serve b env') ∧ ops[k]? = some (.own (.worker e n)) ∧
          AMap.get (w0.run (ops.take p)).srv.reg.toolHandlers tool = some h ∧ e.tool h args = .ret res ∧ Delivered t.taskId res v := by
  intro w0 w few few2 i j x y tool args ttl t m v hx hxp hxs hy hyp hys
  rcases result_of s0 _ ops hc few i x _ _ hx hxp hxs with ⟨k, d, s', h, -⟩ | ⟨o, kind, -, ⟨id, text, -, rfl⟩, -, -, h2⟩ | ⟨p, id, env, σ, r, kind, h1, h2, -⟩
  · cases h
  · exact absurd (says_created h2) (fun h => error_created h)
  rcases result_of s0 _ ops hc few j y _ _ hy hyp hys with ⟨k, d, s', h, -⟩ | ⟨o, kind, -, ⟨id, text, -, rfl⟩, -, -, g2⟩ | ⟨p', id', env', σ', r', kind', g1, g2, -⟩
  · cases h
  · exact .inl (error_result (says_result g2))
  rw [question_task] at h1
  obtain ⟨a, ha, -⟩ := _root_.id h1
  obtain ⟨b, hb, -⟩ := _root_.id g1
  obtain ⟨op, e1, e2, -, e4⟩ := srvOps_dispatched h1
  obtain ⟨op', f1, f2, -, f4⟩ := srvOps_dispatched g1
  rcases task_way (f := srvOps) (srv := World.srv) srvOps_step srvOps_length (w := w0) (rfl : w0.srv = (Srv.init name).run setup) (ops := ops) few2 e1 e2 e4 (says_created h2) f1 f2 f4
    (says_result g2) with h | ⟨k, o, e, n, h, res, k1, k2, k3, k4, k5, k6, k7⟩
  · exact .inl h
  · have := srvOps_worker k4
    subst this
    exact .inr ⟨p, k, p', a, b, env, env', e, n, h, res, k1, k2, ha, hb, k3, k5, k6, k7⟩

end Verif.Near
