import Verif.Back.Props
import Verif.Ask.TaskProps

/-!
C134: what a server is given for a task of its client over the shared-memory transport.
-/

namespace Verif.Back

open Verif.Await Verif.Client Verif.Server Verif.Shm Verif.Tasks
open Verif.Whole (srvTrace srvTrace_append srvTrace_state srvTrace_length srvTrace_place srvTrace_from srvTrace_mono error_mk)
open Verif.Ask (Marked marked_attach created_begun cliError_attach cliResult_value orThrew_created orThrew_json enquiry_sample enquiry_elicit)

variable {D H : Type} [DblFmt D]

/-- What a step does to the client. -/
def cliOps (x : Bool) (w : World D H) (op : Op D H) : List (CliOp D H) :=
  if w.dead then [] else
  match op with
  | .serve i env =>
    match (w.net.get (!x)).jobs[i]? with
    | none => []
    | some q => match (onRequest env w.cli q).1 with | .blocked => [] | _ => [.request env q]
  | .own (.request _ _) => []
  | .own op => [op]
  | _ => []

theorem cliOps_step (c : Cfg) (x : Bool) (w : World D H) (op : Op D H) : (w.step c x op).cli = w.cli.run (cliOps x w op) := by
  unfold cliOps
  cases op with
  | call api => cases w.dead <;> rfl
  | go i =>
    have : (w.go c x i).cli = w.cli := by
      unfold World.go
      split
      · split
        · split <;> rfl
        · rfl
      · rfl
    rw [show w.step c x (.go i) = w.go c x i from rfl, this]
    cases w.dead <;> rfl
  | drop i => cases w.dead <;> rfl
  | change u => cases w.dead <;> rfl
  | deliver n =>
    have : (w.deliver x n).cli = w.cli := by
      unfold World.deliver
      split
      · split <;> rfl
      · rfl
    rw [show w.step c x (.deliver n) = w.deliver x n from rfl, this]
    cases w.dead <;> rfl
  | file i =>
    have : (w.file c x i).cli = w.cli := by
      unfold World.file
      split <;> rfl
    rw [show w.step c x (.file i) = w.file c x i from rfl, this]
    cases w.dead <;> rfl
  | wire nop =>
    have : (w.step c x (.wire nop)).cli = w.cli := by
      simp only [World.step]
      split <;> rfl
    rw [this]
    cases w.dead <;> rfl
  | serve i env =>
    cases hd : w.dead
    · simp only [World.step, World.serve, hd, Bool.false_eq_true, if_false]
      cases hj : (w.net.get (!x)).jobs[i]? with
      | none => rfl
      | some q => cases ho : (onRequest env w.cli q).1 <;> simp only [ho] <;> rfl
    · simp only [World.step, hd, if_true]; rfl
  | own sop =>
    cases hd : w.dead
    · simp only [World.step, hd, Bool.false_eq_true, if_false]
      cases sop <;> rfl
    · simp only [World.step, hd, if_true]; rfl

theorem cliOps_length (x : Bool) (w : World D H) (op : Op D H) : (cliOps x w op).length ≤ 1 := by
  unfold cliOps
  split
  · exact Nat.zero_le _
  · split
    · split
      · exact Nat.zero_le _
      · split
        · exact Nat.zero_le _
        · exact Nat.le_refl _
    · exact Nat.zero_le _
    · exact Nat.le_refl _
    · exact Nat.zero_le _

theorem cliOps_worker {x : Bool} {w : World D H} {op : Op D H} {e : CliEnv D H} {n : Nat} (h : cliOps x w op = [.worker e n]) : op = .own (.worker e n) := by
  unfold cliOps at h
  split at h
  · cases h
  · split at h
    · split at h
      · cases h
      · split at h <;> cases h
    · cases h
    · cases h; rfl
    · cases h

theorem cliOps_dispatched {c : Cfg} {x : Bool} {w : World D H} {ops : List (Op D H)} {p : Nat} {q : Request D} {env : CliEnv D H} {σ : Cli D H} {r : Response D}
    (h : DispatchedAt c x w ops p q env σ r) : ∃ op, ops[p]? = some op ∧ cliOps x (w.run c x (ops.take p)) op = [.request env q] ∧ (w.run c x (ops.take p)).cli = σ ∧
      (onRequest env (w.run c x (ops.take p)).cli q).1 = .answer r := by
  obtain ⟨i, h1, h2, rfl, h4, h5⟩ := h
  refine ⟨_, h1, ?_, rfl, h5⟩
  simp [cliOps, h4, h2, h5]

/-! ### The whole way of a task -/

/-- A request for a task that gave a task and a later request for the outcome of this task. -/
theorem ask_way {c : Cfg} {x : Bool} {s0 : SSelf D} {setup : List (CliOp D H)} {ops : List (Op D H)} (few : setup.length + ops.length + 1 < 2 ^ 64) {p p' : Nat} {env env' : CliEnv D H} {req : Request D} {id id' : RpcId}
    {σ σ' : Cli D H} {r r' : Response D} {strict strict' : Bool} {kind : Option Tasks.Kind} {fb bad : Bytes} {t : Task} {m : Option (JVal D)} {v : JVal D} {j : Client.Job D}
    (hd : DispatchedAt c x (World.init c s0 ((Cli.init).run setup)) ops p req env σ r) (ho : Orders req j) (htask : taskMeta req.params ≠ none)
    (ht : strictCall strict Validation.validateCreateTaskResult parseCreate fb bad [] (.resp ⟨id, r.result, r.error⟩) = .ok (t, m))
    (hd' : DispatchedAt c x (World.init c s0 ((Cli.init).run setup)) ops p' ⟨id', lit "tasks/result", some (taskParams t.taskId)⟩ env' σ' r')
    (hv : taskResult strict' kind (.resp ⟨id', r'.result, r'.error⟩) = some v) :
    isErrorObject v = true ∨ ∃ k e n u, p < k ∧ k < p' ∧ ops[k]? = some (.own (.worker e n)) ∧
      Returned e ((World.init c s0 ((Cli.init).run setup)).run c x (ops.take k)).cli j u ∧ Marked t.taskId u v := by
  obtain ⟨op, hp, hf, -, hr⟩ := cliOps_dispatched hd
  obtain ⟨op', hp', hf', -, hr'⟩ := cliOps_dispatched hd'
  generalize hw0 : World.init c s0 ((Cli.init).run setup) = w at *
  have hw : w.cli = (Cli.init).run setup := by rw [← hw0]; rfl
  -- the executions of the client up to the two requests
  have hall : ∀ l : List (Op D H), (l.foldl (World.step c x) w).cli = (Cli.init).run (setup ++ srvTrace (World.step c x) (cliOps x) w l) := by
    intro l
    rw [cli_run_append, ← hw]
    exact srvTrace_state (st := Cli.step) (srv := World.cli) (cliOps_step c x) l w
  have hlenT : ∀ l : List (Op D H), (setup ++ srvTrace (World.step c x) (cliOps x) w l).length ≤ setup.length + l.length := by
    intro l
    rw [List.length_append]
    have := srvTrace_length (step := World.step c x) (cliOps_length (D := D) (H := H) x) l w
    omega
  have hplace : ∀ {q : Nat} {o : Op D H} {sop : CliOp D H}, ops[q]? = some o → cliOps x ((ops.take q).foldl (World.step c x) w) o = [sop] →
      (setup ++ srvTrace (World.step c x) (cliOps x) w ops)[(setup ++ srvTrace (World.step c x) (cliOps x) w (ops.take q)).length]? = some sop ∧
        cliAt (setup ++ srvTrace (World.step c x) (cliOps x) w ops) (setup ++ srvTrace (World.step c x) (cliOps x) w (ops.take q)).length = ((ops.take q).foldl (World.step c x) w).cli := by
    intro q o sop h1 h2
    obtain ⟨h3, h4⟩ := srvTrace_place h1 h2
    refine ⟨?_, ?_⟩
    · rw [List.length_append, List.getElem?_append_right (by omega), Nat.add_sub_cancel_left]; exact h3
    · rw [hall]
      unfold cliAt
      rw [List.length_append, List.take_append, List.take_of_length_le (by omega), Nat.add_sub_cancel_left, h4]
  have hfew : (setup ++ srvTrace (World.step c x) (cliOps x) w ops).length + 1 < 2 ^ 64 := by
    have := hlenT ops
    omega
  obtain ⟨g1, g2⟩ := hplace hp hf
  have hstart := created_begun hfew g1 ho htask (by rw [g2]; exact hr) ht
  have hfew' : (setup ++ srvTrace (World.step c x) (cliOps x) w (ops.take p')).length + 1 < 2 ^ 64 := by
    have h1 := hlenT (ops.take p')
    rw [List.length_take] at h1
    omega
  have hcli : (w.run c x (ops.take p')).cli = _ := hall (ops.take p')
  rcases cliResult_value (fun pl h1 => by rw [hcli] at h1; exact cliError_attach hfew' h1) hr' hv with h | ⟨pl, h1, h2⟩
  · exact .inl h
  right
  rw [hcli] at h1
  obtain ⟨q, k, j', hqk, hst', hend⟩ := C132_origin _ hfew' t.taskId pl h1
  -- the part of the execution after the second request does not matter
  have hdrop : setup ++ srvTrace (World.step c x) (cliOps x) w ops =
      (setup ++ srvTrace (World.step c x) (cliOps x) w (ops.take p')) ++ srvTrace (World.step c x) (cliOps x) ((ops.take p').foldl (World.step c x) w) (ops.drop p') := by
    rw [List.append_assoc, ← srvTrace_append, List.take_append_drop]
  have hlater : ∀ i, i ≤ (setup ++ srvTrace (World.step c x) (cliOps x) w (ops.take p')).length →
      cliAt (setup ++ srvTrace (World.step c x) (cliOps x) w ops) i = cliAt (setup ++ srvTrace (World.step c x) (cliOps x) w (ops.take p')) i := by
    intro i hi
    unfold cliAt
    rw [hdrop, List.take_append_of_le_length hi]
  have hget : ∀ {i : Nat} {a : CliOp D H}, (setup ++ srvTrace (World.step c x) (cliOps x) w (ops.take p'))[i]? = some a → (setup ++ srvTrace (World.step c x) (cliOps x) w ops)[i]? = some a := by
    intro i a ha
    rw [hdrop, List.getElem?_append_left (List.getElem?_eq_some_iff.1 ha).1]
    exact ha
  have hst2 : BegunAt (setup ++ srvTrace (World.step c x) (cliOps x) w ops) q t.taskId j' := by
    obtain ⟨e, rq, k1, k2⟩ := hst'
    have hl := (List.getElem?_eq_some_iff.1 k1).1
    refine ⟨e, rq, hget k1, ?_⟩
    rw [hlater q (by omega), hlater (q + 1) (by omega)]
    exact k2
  obtain ⟨hq, rfl⟩ := C132_once _ hfew _ _ _ _ _ hst2 hstart
  obtain ⟨e, n, k1, -, k3⟩ := hend
  have hklt := (List.getElem?_eq_some_iff.1 k1).1
  have hks : setup.length ≤ k := by
    rw [hq, List.length_append] at hqk
    omega
  have k1' := k1
  rw [List.getElem?_append_right hks] at k1
  obtain ⟨kk, o, j1, j2, j3⟩ := srvTrace_from (cliOps_length x) _ k1
  have hkk := (List.getElem?_eq_some_iff.1 j1).1
  rw [List.length_take] at hkk
  have htt : (ops.take p').take kk = ops.take kk := by rw [List.take_take, Nat.min_eq_left (by omega)]
  rw [htt] at j2 j3
  have j1' : ops[kk]? = some o := by
    rw [List.getElem?_take] at j1
    split at j1
    · exact j1
    · cases j1
  have := cliOps_worker j2
  subst this
  refine ⟨kk, e, n, pl, ?_, by omega, j1', ?_, h2 ▸ marked_attach _ _⟩
  · rcases Nat.lt_or_ge p kk with hlt | hge
    · exact hlt
    · have := srvTrace_mono (World.step c x) (cliOps x) w ops hge
      rw [hq, List.length_append] at hqk
      omega
  · obtain ⟨-, h4⟩ := hplace j1' j2
    have hk : (setup ++ srvTrace (World.step c x) (cliOps x) w (ops.take kk)).length = k := by rw [List.length_append]; omega
    rw [hk, hlater k (by omega)] at h4
    rw [h4] at k3
    exact k3

/-! ### The claims -/

/-- C134, partial. If `RequestCreateMessageTask` of the server gave a task, and `GetTaskResult` for the id of that task gave a value that is not an error, then between the two a worker
of the client came to its end, whose sampling handler, as registered at that time, was called with exactly the messages, the model preferences, the system prompt and the context
inclusion of the call, and the value is what it returned, marked with the id of the task. Missing: as for `C134_result_partial`; and the other options of the call do not come to the
handler (`C74_sampling_options_counterexample`). -/
theorem C134_sampling_task_partial (c : Cfg) (x : Bool) (s0 : SSelf D) (setup : List (CliOp D H)) (ops : List (Op D H)) (hc : Carried c x (World.init c s0 ((Cli.init).run setup)) ops) :
    let w0 := World.init c s0 ((Cli.init).run setup)
    let w := w0.run c x ops
    OwnNames w → NoWords (w.net.get (!x)) → setup.length + ops.length + 2 < 2 ^ 64 →
      ∀ (i j : Nat) (y z : SCall D) (a : SampleReq D) (ttl : Option Int) (t : Task) (m : Option (JVal D)) (v : JVal D),
      w.server.calls[i]? = some y → y.prog = sbody (.sampleTask a ttl) → y.st = .over (.val (.created t m)) →
      w.server.calls[j]? = some z → z.prog = sbody (.taskResult t.taskId) → z.st = .over (.val (.json v)) →
        isErrorObject v = true ∨ ∃ p k p' b b' env env' e n h u, p < k ∧ k < p' ∧ ops[p]? = some (.serve b env) ∧ ops[p']? = some (.serve b' env') ∧ ops[k]? = some (.own (.worker e n)) ∧
          ((w0.run c x (ops.take k)).cli.sampling = some h ∨ (w0.run c x (ops.take k)).cli.sampling = none ∧ (w0.run c x (ops.take k)).cli.samplingCancelable = some h) ∧
          e.sample h (sampleView a) = .ret u ∧ Marked t.taskId u v := by
  intro w0 w names hw few i j y z a ttl t m v hy hyp hys hz hzp hzs
  rcases result_of c x s0 _ ops hc hw names (by omega) i y _ _ hy hyp hys with ⟨h, -⟩ | ⟨o, kind, ⟨id, text, rfl, -⟩, h⟩ | ⟨p, id, env, σ, r, kind, h1, h2, -⟩
  · simp only [declined] at h
    split at h <;> cases h
  · cases h
  rcases result_of c x s0 _ ops hc hw names (by omega) j z _ _ hz hzp hzs with ⟨h, -⟩ | ⟨o, kind, ⟨id, text, rfl, -⟩, h⟩ | ⟨p', id', env', σ', r', kind', g1, g2, -⟩
  · simp only [declined] at h
    split at h <;> cases h
  · simp only [reports] at h
    have := orThrew_json h
    cases this
    exact .inl (error_mk _ _)
  obtain ⟨b, hb, -⟩ := _root_.id h1
  obtain ⟨b', hb', -⟩ := _root_.id g1
  have hargs : sampleArgs (some (withTask (sampleParams a) ttl)) = sampleView a := sampleArgs_params a [(lit "task", serMeta ttl)] rfl rfl rfl
  rw [enquiry_sample] at h1
  rcases ask_way (by omega) h1 (j := .sample (sampleView a)) ⟨rfl, hargs.symm⟩ (by rw [get_withTask _ _ (sampleParams_task a)]; exact fun h => nomatch h) (orThrew_created h2) g1 (orThrew_json g2) with h | ⟨k, e, n, u, k1, k2, k3, ⟨h, k4, k5⟩, k6⟩
  · exact .inl h
  · exact .inr ⟨p, k, p', b, b', env, env', e, n, h, u, k1, k2, hb, hb', k3, k4, k5, k6⟩

/-- C134, partial. If `RequestElicitationTask` of the server gave a task, and `GetTaskResult` for the id of that task gave a value that is not an error, then between the two a worker of
the client came to its end, whose elicitation handler, as registered at that time, was called with exactly the request of the call, and the value has the action, the content and the id
that the handler returned, and the id of the task. Missing: as for `C134_result_partial`. -/
theorem C134_elicitation_task_partial (c : Cfg) (x : Bool) (s0 : SSelf D) (setup : List (CliOp D H)) (ops : List (Op D H)) (hc : Carried c x (World.init c s0 ((Cli.init).run setup)) ops) :
    let w0 := World.init c s0 ((Cli.init).run setup)
    let w := w0.run c x ops
    OwnNames w → NoWords (w.net.get (!x)) → setup.length + ops.length + 2 < 2 ^ 64 →
      ∀ (i j : Nat) (y z : SCall D) (a : ElicitReq D) (ttl : Option Int) (t : Task) (m : Option (JVal D)) (v : JVal D),
      w.server.calls[i]? = some y → y.prog = sbody (.elicitTask a ttl) → y.st = .over (.val (.created t m)) →
      w.server.calls[j]? = some z → z.prog = sbody (.taskResult t.taskId) → z.st = .over (.val (.json v)) →
        isErrorObject v = true ∨ ∃ p k p' b b' env env' e n h u, p < k ∧ k < p' ∧ ops[p]? = some (.serve b env) ∧ ops[p']? = some (.serve b' env') ∧ ops[k]? = some (.own (.worker e n)) ∧
          (w0.run c x (ops.take k)).cli.elicit = some h ∧ e.elicit h a = .ret u ∧
          v.get? (lit "action") = some (.str u.action) ∧ v.get? (lit "content") = u.content ∧ v.get? (lit "elicitationId") = u.elicitationId.map .str ∧
          ∃ rel, v.get? (lit "_meta") = some (.obj rel) ∧ AMap.get rel (lit "modelcontextprotocol.io/related-task") = some (.obj [(lit "taskId", .str t.taskId)]) := by
  intro w0 w names hw few i j y z a ttl t m v hy hyp hys hz hzp hzs
  rcases result_of c x s0 _ ops hc hw names (by omega) i y _ _ hy hyp hys with ⟨h, -⟩ | ⟨o, kind, ⟨id, text, rfl, -⟩, h⟩ | ⟨p, id, env, σ, r, kind, h1, h2, -⟩
  · simp only [declined] at h
    split at h
    · split at h <;> cases h
    · cases h
  · cases h
  rcases result_of c x s0 _ ops hc hw names (by omega) j z _ _ hz hzp hzs with ⟨h, -⟩ | ⟨o, kind, ⟨id, text, rfl, -⟩, h⟩ | ⟨p', id', env', σ', r', kind', g1, g2, -⟩
  · simp only [declined] at h
    split at h <;> cases h
  · simp only [reports] at h
    have := orThrew_json h
    cases this
    exact .inl (error_mk _ _)
  obtain ⟨b, hb, -⟩ := _root_.id h1
  obtain ⟨b', hb', -⟩ := _root_.id g1
  rw [enquiry_elicit] at h1
  rcases ask_way (by omega) h1 (j := .elicit a) ⟨rfl, (elicitOf_withTask a ttl).symm⟩ (by rw [get_withTask _ _ (elicitParams_task a)]; exact fun h => nomatch h) (orThrew_created h2) g1 (orThrew_json g2) with h | ⟨k, e, n, u, k1, k2, k3, ⟨h, x', k4, k5, c1, c2, c3, mo, c4⟩, k6⟩
  · exact .inl h
  · obtain ⟨d1, rel, d2, d3, -⟩ := k6.2 mo c4
    exact .inr ⟨p, k, p', b, b', env, env', e, n, h, x', k1, k2, hb, hb', k3, k4, k5, (d1 _ (by decide)).trans c1, (d1 _ (by decide)).trans c2, (d1 _ (by decide)).trans c3,
      rel, d2, d3⟩

end Verif.Back
