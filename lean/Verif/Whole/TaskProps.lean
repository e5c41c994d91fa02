import Verif.Whole.TaskLemmas

/-!
C131: what a client is given for a task over a pipe.
-/

namespace Verif.Whole

open Verif.Await Verif.Client Verif.Server
open Verif.Duplex (OwnTexts)

variable {D H : Type} [DblFmt D]

/-- What a step does to the server. -/
def srvOps (w : World D H) (op : Op D H) : List (SrvOp D H) :=
  if w.dead then [] else
  match op with
  | .serve env =>
    match w.pair.b.job with
    | none => []
    | some j => match (dispatch env w.srv j.req).1 with | .blocked => [] | _ => [.request env j.req]
  | .own (.request _ _) => []
  | .own op => [op]
  | _ => []

theorem srvOps_step (c : Cfg D) (w : World D H) (op : Op D H) : (w.step c op).srv = w.srv.run (srvOps w op) := by
  have hnil : w.srv.run [] = w.srv := rfl
  unfold srvOps
  cases op with
  | call api => simp only [World.step, ite_self]; exact hnil.symm
  | go i =>
    simp only [World.step, World.go, ite_self]
    split
    · split <;> rfl
    · rfl
  | drop i => simp only [World.step, ite_self]; exact hnil.symm
  | change u => simp only [World.step, ite_self]; exact hnil.symm
  | deliver n =>
    simp only [World.step, World.deliver, ite_self]
    split
    · split <;> rfl
    · rfl
  | wire y nop => simp only [World.step, ite_self]; split <;> rfl
  | serve env =>
    simp only [World.step]
    cases hd : w.dead
    · simp only [Bool.false_eq_true, if_false, World.serve]
      cases hj : w.pair.b.job with
      | none => rfl
      | some j => cases ho : (dispatch env w.srv j.req).1 <;> simp only [ho] <;> rfl
    · rfl
  | own sop => cases hd : w.dead <;> cases sop <;> simp only [World.step, hd] <;> rfl

theorem srvOps_length (w : World D H) (op : Op D H) : (srvOps w op).length ≤ 1 := by
  unfold srvOps
  split
  · exact Nat.zero_le _
  · split
    · split
      · exact Nat.zero_le _
      · split
        · exact Nat.zero_le _
        · exact Nat.le_refl _
    · exact Nat.zero_le _
    · exact Nat.le_refl _
    · exact Nat.zero_le _

theorem srvOps_worker {w : World D H} {op : Op D H} {e : Env D H} {n : Nat} (h : srvOps w op = [.worker e n]) : op = .own (.worker e n) := by
  unfold srvOps at h
  split at h
  · cases h
  · split at h
    · split at h
      · cases h
      · split at h <;> cases h
    · cases h
    · cases h; rfl
    · cases h

theorem srvOps_dispatched {c : Cfg D} {w : World D H} {ops : List (Op D H)} {p : Nat} {q : Request D} {env : Env D H} {σ : Srv D H} {r : Response D}
    (h : DispatchedAt c w ops p q env σ r) : ∃ op, ops[p]? = some op ∧ srvOps (w.run c (ops.take p)) op = [.request env q] ∧ (w.run c (ops.take p)).srv = σ ∧
      (dispatch env (w.run c (ops.take p)).srv q).1 = .answer r := by
  obtain ⟨h1, ⟨j, h2, rfl⟩, rfl, h4, h5⟩ := h
  refine ⟨_, h1, ?_, rfl, h5⟩
  simp [srvOps, h4, h2, h5]

/-- C131, partial. Over a pipe, if `CallToolTask` gave a task and `GetTaskResult` for the id of that task gave a value that is not an error, then a worker of the server came to its end
between the dispatches of the two requests, having run the handler that was registered under the name of the tool when the first was dispatched, on exactly the arguments of the
call, and the value is what the handler returned, with the metadata that names the task. Missing: as for `C115_result_partial`. -/
theorem C131_stdio_partial (c : Cfg D) (s0 : Self D) (name : Bytes) (setup : List (SrvOp D H)) (ops : List (Op D H))
    (hc : Carried c (World.init s0 ((Srv.init name).run setup)) ops) :
    let w0 := World.init s0 ((Srv.init name).run setup)
    let w := w0.run c ops
    OwnTexts (w.pair.a.given.map (·.id)) → setup.length + ops.length + 1 < 2 ^ 64 →
      ∀ (i j : Nat) (x y : CCall D) (tool : Bytes) (args : JVal D) (ttl : Option Int) (t : Tasks.Task) (m : Option (JVal D)) (v : JVal D),
      w.client.calls[i]? = some x → x.prog = body (.callToolTask tool args ttl) → x.st = .over (some (.created t m)) →
      w.client.calls[j]? = some y → y.prog = body (.taskResult t.taskId) → y.st = .over (some (.json v)) →
        isErrorObject v = true ∨ ∃ p k p' env env' e n h res, p < k ∧ k < p' ∧ ops[p]? = some (.serve env) ∧ ops[p']? = some (.serve env') ∧ ops[k]? = some (.own (.worker e n)) ∧
          AMap.get (w0.run c (ops.take p)).srv.reg.toolHandlers tool = some h ∧ e.tool h args = .ret res ∧ Delivered t.taskId res v := by
  intro w0 w few few2 i j x y tool args ttl t m v hx hxp hxs hy hyp hys
  rcases result_of c s0 _ ops hc few i x _ _ hx hxp hxs with ⟨k, d, s', h, -⟩ | ⟨o, kind, h1, h2⟩ | ⟨p, id, env, σ, r, kind, h1, h2, -⟩
  · cases h
  · obtain ⟨id, text, -, rfl⟩ := h1
    exact absurd (says_created h2) (fun h => error_created h)
  rcases result_of c s0 _ ops hc few j y _ _ hy hyp hys with ⟨k, d, s', h, -⟩ | ⟨o, kind, g1, g2⟩ | ⟨p', id', env', σ', r', kind', g1, g2, -⟩
  · cases h
  · obtain ⟨id, text, -, rfl⟩ := g1
    exact .inl (error_result (says_result g2))
  rw [question_task] at h1
  have ha := h1.1
  have hb := g1.1
  obtain ⟨op, e1, e2, -, e4⟩ := srvOps_dispatched h1
  obtain ⟨op', f1, f2, -, f4⟩ := srvOps_dispatched g1
  rcases task_way (step := World.step c) (f := srvOps) (srv := World.srv) (srvOps_step c) srvOps_length (w := w0) (rfl : w0.srv = (Srv.init name).run setup) (ops := ops) few2
    e1 e2 e4 (says_created h2) f1 f2 f4 (says_result g2) with h | ⟨k, o, e, n, h, res, k1, k2, k3, k4, k5, k6, k7⟩
  · exact .inl h
  · have := srvOps_worker k4
    subst this
    exact .inr ⟨p, k, p', env, env', e, n, h, res, k1, k2, ha, hb, k3, k5, k6, k7⟩

end Verif.Whole
