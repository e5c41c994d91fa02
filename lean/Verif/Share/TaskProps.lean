import Verif.Share.Props
import Verif.Whole.TaskLemmas

/-!
C133: what a client is given for a task over the shared-memory transport.
-/

namespace Verif.Share

open Verif.Await Verif.Client Verif.Server Verif.Shm
open Verif.Whole (Delivered task_way question_task says_created says_result error_created error_result)

variable {D H : Type} [DblFmt D]

/-- What a step does to the server. -/
def srvOps (x : Bool) (w : World D H) (op : Op D H) : List (SrvOp D H) :=
  if w.dead then [] else
  match op with
  | .serve i env =>
    match (w.net.get (!x)).jobs[i]? with
    | none => []
    | some q => match (dispatch env w.srv q).1 with | .blocked => [] | _ => [.request env q]
  | .own (.request _ _) => []
  | .own op => [op]
  | _ => []

theorem srvOps_step (c : Cfg) (x : Bool) (w : World D H) (op : Op D H) : (w.step c x op).srv = w.srv.run (srvOps x w op) := by
  unfold srvOps
  cases op with
  | call api => cases w.dead <;> rfl
  | go i =>
    have : (w.go c x i).srv = w.srv := by
      unfold World.go
      split
      · split
        · split <;> rfl
        · rfl
      · rfl
    rw [show w.step c x (.go i) = w.go c x i from rfl, this]
    cases w.dead <;> rfl
  | drop i => cases w.dead <;> rfl
  | change u => cases w.dead <;> rfl
  | deliver n =>
    have : (w.deliver x n).srv = w.srv := by
      unfold World.deliver
      split
      · split <;> rfl
      · rfl
    rw [show w.step c x (.deliver n) = w.deliver x n from rfl, this]
    cases w.dead <;> rfl
  | file i =>
    have : (w.file c x i).srv = w.srv := by
      unfold World.file
      split <;> rfl
    rw [show w.step c x (.file i) = w.file c x i from rfl, this]
    cases w.dead <;> rfl
  | wire nop =>
    have : (w.step c x (.wire nop)).srv = w.srv := by
      simp only [World.step]
      split <;> rfl
    rw [this]
    cases w.dead <;> rfl
  | serve i env =>
    cases hd : w.dead
    · simp only [World.step, World.serve, hd, Bool.false_eq_true, if_false]
      cases hj : (w.net.get (!x)).jobs[i]? with
      | none => rfl
      | some q => cases ho : (dispatch env w.srv q).1 <;> simp only [ho] <;> rfl
    · simp only [World.step, hd, if_true]; rfl
  | own sop =>
    cases hd : w.dead
    · simp only [World.step, hd, Bool.false_eq_true, if_false]
      cases sop <;> rfl
    · simp only [World.step, hd, if_true]; rfl

theorem srvOps_length (x : Bool) (w : World D H) (op : Op D H) : (srvOps x w op).length ≤ 1 := by
  unfold srvOps
  split
  · exact Nat.zero_le _
  · split
    · split
      · exact Nat.zero_le _
      · split
        · exact Nat.zero_le _
        · exact Nat.le_refl _
    · exact Nat.zero_le _
    · exact Nat.le_refl _
    · exact Nat.zero_le _

theorem srvOps_worker {x : Bool} {w : World D H} {op : Op D H} {e : Env D H} {n : Nat} (h : srvOps x w op = [.worker e n]) : op = .own (.worker e n) := by
  unfold srvOps at h
  split at h
  · cases h
  · split at h
    · split at h
      · cases h
      · split at h <;> cases h
    · cases h
    · cases h; rfl
    · cases h

theorem srvOps_dispatched {c : Cfg} {x : Bool} {w : World D H} {ops : List (Op D H)} {p : Nat} {q : Request D} {env : Env D H} {σ : Srv D H} {r : Response D}
    (h : DispatchedAt c x w ops p q env σ r) : ∃ op, ops[p]? = some op ∧ srvOps x (w.run c x (ops.take p)) op = [.request env q] ∧ (w.run c x (ops.take p)).srv = σ ∧
      (dispatch env (w.run c x (ops.take p)).srv q).1 = .answer r := by
  obtain ⟨i, h1, h2, rfl, h4, h5⟩ := h
  refine ⟨_, h1, ?_, rfl, h5⟩
  simp [srvOps, h4, h2, h5]

/-- C133, partial. Over the shared-memory transport, if `CallToolTask` gave a task and `GetTaskResult` for the id of that task gave a value that is not an error, then a worker of the server
came to its end between the dispatches of the two requests, having run the handler that was registered under the name of the tool when the first was dispatched, on exactly the
arguments of the call, and the value is what the handler returned, with the metadata that names the task. Missing: as for `C133_result_partial`. -/
theorem C133_task_partial (c : Cfg) (x : Bool) (s0 : Self D) (name : Bytes) (setup : List (SrvOp D H)) (ops : List (Op D H))
    (hc : Carried c x (World.init c s0 ((Srv.init name).run setup)) ops) (few : setup.length + ops.length + 2 < 2 ^ 64) :
    let w0 := World.init c s0 ((Srv.init name).run setup)
    let w := w0.run c x ops
    NoWords (w.net.get (!x)) →
      ∀ (i j : Nat) (y z : CCall D) (tool : Bytes) (args : JVal D) (ttl : Option Int) (t : Tasks.Task) (m : Option (JVal D)) (v : JVal D),
      w.client.calls[i]? = some y → y.prog = body (.callToolTask tool args ttl) → y.st = .over (some (.created t m)) →
      w.client.calls[j]? = some z → z.prog = body (.taskResult t.taskId) → z.st = .over (some (.json v)) →
        isErrorObject v = true ∨ ∃ p k p' a b env env' e n h res, p < k ∧ k < p' ∧ ops[p]? = some (.serve a env) ∧ ops[p']? = some (.serve b env') ∧ ops[k]? = some (.own (.worker e n)) ∧
          AMap.get (w0.run c x (ops.take p)).srv.reg.toolHandlers tool = some h ∧ e.tool h args = .ret res ∧ Delivered t.taskId res v := by
  intro w0 w hw i j y z tool args ttl t m v hy hyp hys hz hzp hzs
  rcases result_of c x s0 _ ops hc hw (by omega) i y _ _ hy hyp hys with ⟨k, d, s', h, -⟩ | ⟨o, kind, ⟨id, text, rfl, -⟩, h2⟩ | ⟨p, id, env, σ, r, kind, h1, h2, -⟩
  · cases h
  · exact absurd (says_created h2) (fun h => error_created h)
  rcases result_of c x s0 _ ops hc hw (by omega) j z _ _ hz hzp hzs with ⟨k, d, s', h, -⟩ | ⟨o, kind, ⟨id, text, rfl, -⟩, g2⟩ | ⟨p', id', env', σ', r', kind', g1, g2, -⟩
  · cases h
  · exact .inl (error_result (says_result g2))
  rw [question_task] at h1
  obtain ⟨a, ha, -⟩ := _root_.id h1
  obtain ⟨b, hb, -⟩ := _root_.id g1
  obtain ⟨op, e1, e2, -, e4⟩ := srvOps_dispatched h1
  obtain ⟨op', f1, f2, -, f4⟩ := srvOps_dispatched g1
  rcases task_way (f := srvOps x) (srv := World.srv) (srvOps_step c x) (srvOps_length x) (w := w0) (rfl : w0.srv = (Srv.init name).run setup) (ops := ops) (by omega) e1 e2 e4
    (says_created h2) f1 f2 f4 (says_result g2) with h | ⟨k, o, e, n, h, res, k1, k2, k3, k4, k5, k6, k7⟩
  · exact .inl h
  · have := srvOps_worker k4
    subst this
    exact .inr ⟨p, k, p', a, b, env, env', e, n, h, res, k1, k2, ha, hb, k3, k5, k6, k7⟩

end Verif.Share
