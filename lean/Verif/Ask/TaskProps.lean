import Verif.Ask.HandlerProps
import Verif.Client.TaskOriginProps
import Verif.Whole.TaskLemmas

/-!
C132: what a server is given for a task of its client over the in-memory transport.
-/

namespace Verif.Ask

open Verif.Await Verif.Client Verif.Server Verif.InMemory Verif.Tasks
open Verif.Whole (srvTrace srvTrace_append srvTrace_state srvTrace_length srvTrace_place srvTrace_from srvTrace_mono error_mk)
open Verif.Near (Unanswered)

variable {D H : Type} [DblFmt D]

/-! ### Specification -/

/-- `v` is `u`, with nothing changed but the metadata that names task `id`; what is no object stays as it is. -/
def Marked (id : Bytes) (u v : JVal D) : Prop :=
  ((∀ m, u ≠ .obj m) → v = u) ∧ ∀ m, u = .obj m → (∀ k, k ≠ lit "_meta" → v.get? k = u.get? k) ∧
    ∃ rel, v.get? (lit "_meta") = some (.obj rel) ∧ AMap.get rel (lit "modelcontextprotocol.io/related-task") = some (.obj [(lit "taskId", .str id)]) ∧
      ∀ o, u.get? (lit "_meta") = some (.obj o) → ∀ k, k ≠ lit "modelcontextprotocol.io/related-task" → AMap.get rel k = AMap.get o k

/-! ### What the steps do to the client -/

/-- What a step does to the client. -/
def cliOps (w : World D H) (op : Op D H) : List (CliOp D H) :=
  if w.dead then [] else
  match op with
  | .serve i env =>
    match w.net.b.jobs[i]? with
    | none => []
    | some q => match (onRequest env w.cli q).1 with | .blocked => [] | _ => [.request env q]
  | .own (.request _ _) => []
  | .own op => [op]
  | _ => []

theorem cliOps_step (w : World D H) (op : Op D H) : (w.step op).cli = w.cli.run (cliOps w op) := by
  unfold World.step cliOps
  cases hd : w.dead
  · simp only [Bool.false_eq_true, if_false]
    cases op with
    | call api => rfl
    | go i =>
      simp only [World.act, World.go]
      split
      · split <;> rfl
      · rfl
    | drop i => rfl
    | change u => rfl
    | deliver n =>
      simp only [World.act, World.deliver]
      split
      · split <;> rfl
      · rfl
    | wire nop => simp only [World.act]; split <;> rfl
    | serve i env =>
      simp only [World.act, World.serve]
      cases hj : w.net.b.jobs[i]? with
      | none => rfl
      | some q => cases ho : (onRequest env w.cli q).1 <;> simp only [ho] <;> rfl
    | own sop => cases sop <;> rfl
  · rfl

theorem cliOps_length (w : World D H) (op : Op D H) : (cliOps w op).length ≤ 1 := by
  unfold cliOps
  split
  · exact Nat.zero_le _
  · split
    · split
      · exact Nat.zero_le _
      · split
        · exact Nat.zero_le _
        · exact Nat.le_refl _
    · exact Nat.zero_le _
    · exact Nat.le_refl _
    · exact Nat.zero_le _

theorem cliOps_worker {w : World D H} {op : Op D H} {e : CliEnv D H} {n : Nat} (h : cliOps w op = [.worker e n]) : op = .own (.worker e n) := by
  unfold cliOps at h
  split at h
  · cases h
  · split at h
    · split at h
      · cases h
      · split at h <;> cases h
    · cases h
    · cases h; rfl
    · cases h

theorem cliOps_dispatched {w : World D H} {ops : List (Op D H)} {p : Nat} {q : Request D} {env : CliEnv D H} {σ : Cli D H} {r : Response D}
    (h : DispatchedAt w ops p q env σ r) : ∃ op, ops[p]? = some op ∧ cliOps (w.run (ops.take p)) op = [.request env q] ∧
      (onRequest env (w.run (ops.take p)).cli q).1 = .answer r := by
  obtain ⟨i, h1, h2, rfl, h4, h5⟩ := h
  refine ⟨_, h1, ?_, h5⟩
  simp [cliOps, h4, h2, h5]

/-! ### The two requests of a task -/

theorem marked_attach (id : Bytes) (u : JVal D) : Marked id u (attachResult u id) := by
  constructor
  · intro h
    cases u with
    | obj m => exact absurd rfl (h m)
    | _ => rfl
  · rintro m rfl
    obtain ⟨m0, m', rel, e0, e1, h1, h2, h3, h4⟩ := attachResult_spec id m
    cases e0
    rw [e1]
    exact ⟨h1, rel, h2, h3, h4⟩

/-- What the request for a task of either kind is answered with, if the answer makes the caller believe in a task. -/
theorem answer_created {env : CliEnv D H} {s : Cli D H} {req : Request D} {r : Response D} {id' : RpcId} {strict : Bool} {fb bad : Bytes} {t : Task} {m : Option (JVal D)} {j : Client.Job D}
    (ho : Orders req j) (htask : taskMeta req.params ≠ none) (hr : (onRequest env s req).1 = .answer r)
    (ht : strictCall strict Validation.validateCreateTaskResult parseCreate fb bad [] (.resp ⟨id', r.result, r.error⟩) = .ok (t, m)) :
    ∃ k ttl, onRequest env s req = startTask s env.now req.id k ttl j := by
  have hfail : ∀ {c : Int} {msg : Bytes}, failed (D := D) req.id c msg = .answer r → False := by
    intro c msg h
    cases h
    cases ht
  cases j with
  | elicit e =>
    obtain ⟨hm, rfl⟩ := ho
    rw [onRequest_elicit _ _ _ hm] at hr ⊢
    unfold cliElicit at hr ⊢
    split at hr
    · exact (hfail hr).elim
    · simp only at hr ⊢
      split at hr
      · exact (hfail hr).elim
      · rename_i hs
        rw [if_neg hs]
        split at hr
        · rename_i ttl hm
          split at hr
          · rename_i hal
            rw [if_pos hal]
            exact ⟨_, _, rfl⟩
          · exact (hfail hr).elim
        · rename_i hm; exact absurd hm htask
  | sample a =>
    obtain ⟨hm, rfl⟩ := ho
    rw [onRequest_sample _ _ _ hm] at hr ⊢
    unfold cliSample at hr ⊢
    split at hr
    · rename_i ttl hm
      split at hr
      · rename_i hal
        rw [if_pos hal]
        split at hr
        · exact (hfail hr).elim
        · split at hr
          · exact (hfail hr).elim
          · rename_i hs
            simp only [if_neg hs]
            exact ⟨_, _, rfl⟩
      · exact (hfail hr).elim
    · rename_i hm; exact absurd hm htask

/-- The request for a task gave a task: then a task was begun. -/
theorem created_begun {ops : List (CliOp D H)} (hn : ops.length + 1 < 2 ^ 64) {p : Nat} {env : CliEnv D H} {req : Request D} {r : Response D} {id' : RpcId} {strict : Bool} {fb bad : Bytes}
    {t : Task} {m : Option (JVal D)} {j : Client.Job D} (hp : ops[p]? = some (.request env req)) (ho : Orders req j) (htask : taskMeta req.params ≠ none)
    (hr : (onRequest env (cliAt ops p) req).1 = .answer r)
    (ht : strictCall strict Validation.validateCreateTaskResult parseCreate fb bad [] (.resp ⟨id', r.result, r.error⟩) = .ok (t, m)) : BegunAt ops p t.taskId j := by
  have hlt : p < ops.length := (List.getElem?_eq_some_iff.1 hp).1
  obtain ⟨k, ttl, he⟩ := answer_created ho htask hr ht
  obtain ⟨k0, -, hi⟩ := (cliGood_reach (D := D) (H := H) (ops.take p) (by rw [List.length_take]; omega)).store
  have hf := fresh_id hi
  rw [he, (started _ _ _ _ _ _).1] at hr
  cases hr
  simp only [strictCall, serCreate_valid, Bool.not_true, Bool.and_false, Bool.false_eq_true, if_false] at ht
  have hid : t.taskId = lit "task-" ++ natDec (cliAt ops p).tasks.nextId := by
    have e := Except.ok.inj ht
    have e2 : t = ((cliAt ops p).tasks.create k ttl env.now).1 := by
      rw [show t = (parseCreate (serCreate ((cliAt ops p).tasks.create k ttl env.now).1 none : JVal D)).1 by rw [e]]
      exact serTask_parse _
    rw [e2]; rfl
  refine ⟨env, req, hp, ho, (taskMeta_iff req).1 (Option.isSome_iff_ne_none.2 htask), ?_, ?_⟩
  · rw [hid]; exact hf
  · rw [cliAt_succ hp, hid]
    show (AMap.get (onRequest env (cliAt ops p) req).2.tasks.records _).isSome = true
    rw [he]
    show (AMap.get (AMap.put _ _ _) _).isSome = true
    rw [AMap.get_put_self]; rfl

theorem cliError_attach {ops : List (CliOp D H)} (hn : ops.length + 1 < 2 ^ 64) {tid : Bytes} {p : JVal D} (hr : ((Cli.init : Cli D H).run ops).tasks.wait tid = .got true p) :
    isErrorObject (attachError p tid) = true := by
  have key : ∀ text, isErrorObject (attachError (errorText text : JVal D) tid) = true := fun text => rfl
  obtain ⟨k, h | ⟨_, _, _, -, -, h⟩⟩ := C132_failure ops hn tid p hr
  · obtain ⟨_, -, -, rfl⟩ := h; exact key _
  · rcases h with ⟨_, -, rfl⟩ | ⟨_, -, -, -, rfl⟩ <;> exact key _

/-- What the answer to `tasks/result` makes of the outcome of the task. -/
theorem cliResult_value {env : CliEnv D H} {s : Cli D H} {id id' : RpcId} {tid : Bytes} {r : Response D} {strict : Bool} {kind : Option Tasks.Kind} {v : JVal D}
    (he : ∀ p, s.tasks.wait tid = .got true p → isErrorObject (attachError p tid) = true)
    (hr : (onRequest env s ⟨id, lit "tasks/result", some (taskParams tid)⟩).1 = .answer r)
    (hv : taskResult strict kind (.resp ⟨id', r.result, r.error⟩) = some v) :
    isErrorObject v = true ∨ ∃ p, s.tasks.wait tid = .got false p ∧ v = attachResult p tid := by
  rw [onRequest_result _ _ _ rfl] at hr
  have hfail : ∀ c msg, failed (D := D) id c msg = .answer r → isErrorObject v = true := by
    intro c msg h
    cases h
    cases hv
    exact error_mk c msg
  unfold cliTaskResult at hr
  rw [show taskIdParam (some (taskParams tid) : Option (JVal D)) = some tid from rfl] at hr
  dsimp only at hr
  split at hr
  · exact .inl (hfail _ _ hr)
  cases hw : s.tasks.wait tid with
  | unknown => rw [hw] at hr; exact .inl (hfail _ _ hr)
  | blocked => rw [hw] at hr; cases hr
  | got e p =>
    rw [hw] at hr
    cases e with
    | true =>
      dsimp only at hr
      cases hr
      cases hv
      exact .inl (he p hw)
    | false =>
      dsimp only at hr
      have okcase : ∀ {i : RpcId}, okay i (attachResult p tid) = .answer r → v = attachResult p tid := by
        intro i h
        cases h
        simp only [taskResult] at hv
        split at hv
        · split at hv
          · cases hv
          · cases hv; rfl
        · cases hv; rfl
      split at hr
      · unfold checked at hr
        split at hr
        · exact .inl (hfail _ _ hr)
        · exact .inr ⟨p, rfl, okcase hr⟩
      · exact .inr ⟨p, rfl, okcase hr⟩

/-! ### The whole way of a task -/

/-- A request for a task that gave a task and a later request for the outcome of this task. -/
theorem ask_way {s0 : SSelf D} {setup : List (CliOp D H)} {ops : List (Op D H)} (few : setup.length + ops.length + 1 < 2 ^ 64) {p p' : Nat} {env env' : CliEnv D H} {req : Request D} {id id' : RpcId}
    {σ σ' : Cli D H} {r r' : Response D} {strict strict' : Bool} {kind : Option Tasks.Kind} {fb bad : Bytes} {t : Task} {m : Option (JVal D)} {v : JVal D} {j : Client.Job D}
    (hd : DispatchedAt (World.init s0 ((Cli.init).run setup)) ops p req env σ r) (ho : Orders req j) (htask : taskMeta req.params ≠ none)
    (ht : strictCall strict Validation.validateCreateTaskResult parseCreate fb bad [] (.resp ⟨id, r.result, r.error⟩) = .ok (t, m))
    (hd' : DispatchedAt (World.init s0 ((Cli.init).run setup)) ops p' ⟨id', lit "tasks/result", some (taskParams t.taskId)⟩ env' σ' r')
    (hv : taskResult strict' kind (.resp ⟨id', r'.result, r'.error⟩) = some v) :
    isErrorObject v = true ∨ ∃ k e n u, p < k ∧ k < p' ∧ ops[k]? = some (.own (.worker e n)) ∧
      Returned e ((World.init s0 ((Cli.init).run setup)).run (ops.take k)).cli j u ∧ Marked t.taskId u v := by
  obtain ⟨op, hp, hf, hr⟩ := cliOps_dispatched hd
  obtain ⟨op', hp', hf', hr'⟩ := cliOps_dispatched hd'
  generalize hw0 : World.init s0 ((Cli.init).run setup) = w at *
  have hw : w.cli = (Cli.init).run setup := by rw [← hw0]; rfl
  -- the executions of the client up to the two requests
  have hall : ∀ l : List (Op D H), (l.foldl World.step w).cli = (Cli.init).run (setup ++ srvTrace World.step cliOps w l) := by
    intro l
    rw [cli_run_append, ← hw]
    exact srvTrace_state (st := Cli.step) (srv := World.cli) cliOps_step l w
  have hlenT : ∀ l : List (Op D H), (setup ++ srvTrace World.step cliOps w l).length ≤ setup.length + l.length := by
    intro l
    rw [List.length_append]
    have := srvTrace_length (step := World.step) (cliOps_length (D := D) (H := H)) l w
    omega
  have hplace : ∀ {q : Nat} {o : Op D H} {sop : CliOp D H}, ops[q]? = some o → cliOps ((ops.take q).foldl World.step w) o = [sop] →
      (setup ++ srvTrace World.step cliOps w ops)[(setup ++ srvTrace World.step cliOps w (ops.take q)).length]? = some sop ∧
        cliAt (setup ++ srvTrace World.step cliOps w ops) (setup ++ srvTrace World.step cliOps w (ops.take q)).length = ((ops.take q).foldl World.step w).cli := by
    intro q o sop h1 h2
    obtain ⟨h3, h4⟩ := srvTrace_place h1 h2
    refine ⟨?_, ?_⟩
    · rw [List.length_append, List.getElem?_append_right (by omega), Nat.add_sub_cancel_left]; exact h3
    · rw [hall]
      unfold cliAt
      rw [List.length_append, List.take_append, List.take_of_length_le (by omega), Nat.add_sub_cancel_left, h4]
  have hfew : (setup ++ srvTrace World.step cliOps w ops).length + 1 < 2 ^ 64 := by
    have := hlenT ops
    omega
  obtain ⟨g1, g2⟩ := hplace hp hf
  have hstart := created_begun hfew g1 ho htask (by rw [g2]; exact hr) ht
  have hfew' : (setup ++ srvTrace World.step cliOps w (ops.take p')).length + 1 < 2 ^ 64 := by
    have h1 := hlenT (ops.take p')
    rw [List.length_take] at h1
    omega
  have hcli : (w.run (ops.take p')).cli = _ := hall (ops.take p')
  rcases cliResult_value (fun pl h1 => by rw [hcli] at h1; exact cliError_attach hfew' h1) hr' hv with h | ⟨pl, h1, h2⟩
  · exact .inl h
  right
  rw [hcli] at h1
  obtain ⟨q, k, j', hqk, hst', hend⟩ := C132_origin _ hfew' t.taskId pl h1
  -- the part of the execution after the second request does not matter
  have hdrop : setup ++ srvTrace World.step cliOps w ops =
      (setup ++ srvTrace World.step cliOps w (ops.take p')) ++ srvTrace World.step cliOps ((ops.take p').foldl World.step w) (ops.drop p') := by
    rw [List.append_assoc, ← srvTrace_append, List.take_append_drop]
  have hlater : ∀ i, i ≤ (setup ++ srvTrace World.step cliOps w (ops.take p')).length →
      cliAt (setup ++ srvTrace World.step cliOps w ops) i = cliAt (setup ++ srvTrace World.step cliOps w (ops.take p')) i := by
    intro i hi
    unfold cliAt
    rw [hdrop, List.take_append_of_le_length hi]
  have hget : ∀ {i : Nat} {a : CliOp D H}, (setup ++ srvTrace World.step cliOps w (ops.take p'))[i]? = some a → (setup ++ srvTrace World.step cliOps w ops)[i]? = some a := by
    intro i a ha
    rw [hdrop, List.getElem?_append_left (List.getElem?_eq_some_iff.1 ha).1]
    exact ha
  have hst2 : BegunAt (setup ++ srvTrace World.step cliOps w ops) q t.taskId j' := by
    obtain ⟨e, rq, k1, k2⟩ := hst'
    have hl := (List.getElem?_eq_some_iff.1 k1).1
    refine ⟨e, rq, hget k1, ?_⟩
    rw [hlater q (by omega), hlater (q + 1) (by omega)]
    exact k2
  obtain ⟨hq, rfl⟩ := C132_once _ hfew _ _ _ _ _ hst2 hstart
  obtain ⟨e, n, k1, -, k3⟩ := hend
  have hklt := (List.getElem?_eq_some_iff.1 k1).1
  have hks : setup.length ≤ k := by
    rw [hq, List.length_append] at hqk
    omega
  have k1' := k1
  rw [List.getElem?_append_right hks] at k1
  obtain ⟨kk, o, j1, j2, j3⟩ := srvTrace_from cliOps_length _ k1
  have hkk := (List.getElem?_eq_some_iff.1 j1).1
  rw [List.length_take] at hkk
  have htt : (ops.take p').take kk = ops.take kk := by rw [List.take_take, Nat.min_eq_left (by omega)]
  rw [htt] at j2 j3
  have j1' : ops[kk]? = some o := by
    rw [List.getElem?_take] at j1
    split at j1
    · exact j1
    · cases j1
  have := cliOps_worker j2
  subst this
  refine ⟨kk, e, n, pl, ?_, by omega, j1', ?_, h2 ▸ marked_attach _ _⟩
  · rcases Nat.lt_or_ge p kk with hlt | hge
    · exact hlt
    · have := srvTrace_mono World.step cliOps w ops hge
      rw [hq, List.length_append] at hqk
      omega
  · obtain ⟨-, h4⟩ := hplace j1' j2
    have hk : (setup ++ srvTrace World.step cliOps w (ops.take kk)).length = k := by rw [List.length_append]; omega
    rw [hk, hlater k (by omega)] at h4
    rw [h4] at k3
    exact k3

/-! ### The claims -/

theorem orThrew_created {x : Except Bytes (Task × Option (JVal D))} {t : Task} {m : Option (JVal D)}
    (h : SOut.val (.created t m) = orThrew (fun p => .created p.1 p.2) x.toOption) : x = .ok (t, m) := by
  cases x with
  | error e => cases h
  | ok q => cases h; rfl

theorem orThrew_json {x : Option (JVal D)} {v : JVal D} (h : SOut.val (.json v) = orThrew .json x) : x = some v := by
  cases x with
  | none => cases h
  | some q => cases h; rfl

theorem enquiry_sample (a : SampleReq D) (ttl : Option Int) :
    enquiry (.sampleTask a ttl) = ⟨none, lit "sampling/createMessage", some (withTask (sampleParams a) ttl)⟩ := by
  cases ttl <;> rfl

theorem enquiry_elicit (a : ElicitReq D) (ttl : Option Int) :
    enquiry (.elicitTask a ttl) = ⟨none, lit "elicitation/create", some (withTask (elicitParams a) ttl)⟩ := by
  cases ttl <;> rfl

/-- C132, partial. If `RequestCreateMessageTask` of the server gave a task, and `GetTaskResult` for the id of that task gave a value that is not an error, then between the two a worker
of the client came to its end, whose sampling handler, as registered at that time, was called with exactly the messages, the model preferences, the system prompt and the context
inclusion of the call, and the value is what it returned, marked with the id of the task. Missing: as for `C130_result_partial`; and the other options of the call do not come to the
handler (`C74_sampling_options_counterexample`). -/
theorem C132_sampling_partial (s0 : SSelf D) (setup : List (CliOp D H)) (ops : List (Op D H)) (hc : Carried (World.init s0 ((Cli.init).run setup)) ops) :
    let w0 := World.init s0 ((Cli.init).run setup)
    let w := w0.run ops
    OwnNames w → w.server.cells.length < 2 ^ 32 → setup.length + ops.length + 1 < 2 ^ 64 →
      ∀ (i j : Nat) (x y : SCall D) (a : SampleReq D) (ttl : Option Int) (t : Task) (m : Option (JVal D)) (v : JVal D),
      w.server.calls[i]? = some x → x.prog = sbody (.sampleTask a ttl) → x.st = .over (.val (.created t m)) →
      w.server.calls[j]? = some y → y.prog = sbody (.taskResult t.taskId) → y.st = .over (.val (.json v)) →
        isErrorObject v = true ∨ ∃ p k p' b b' env env' e n h u, p < k ∧ k < p' ∧ ops[p]? = some (.serve b env) ∧ ops[p']? = some (.serve b' env') ∧ ops[k]? = some (.own (.worker e n)) ∧
          ((w0.run (ops.take k)).cli.sampling = some h ∨ (w0.run (ops.take k)).cli.sampling = none ∧ (w0.run (ops.take k)).cli.samplingCancelable = some h) ∧
          e.sample h (sampleView a) = .ret u ∧ Marked t.taskId u v := by
  intro w0 w names few few2 i j x y a ttl t m v hx hxp hxs hy hyp hys
  rcases result_of s0 _ ops hc names few i x _ _ hx hxp hxs with ⟨h, -⟩ | ⟨o, kind, op, ⟨id, text, -, rfl⟩, -, -, h⟩ | ⟨p, id, env, σ, r, kind, h1, h2, -⟩
  · simp only [declined] at h
    split at h <;> cases h
  · cases h
  rcases result_of s0 _ ops hc names few j y _ _ hy hyp hys with ⟨h, -⟩ | ⟨o, kind, op, ⟨id, text, -, rfl⟩, -, -, h⟩ | ⟨p', id', env', σ', r', kind', g1, g2, -⟩
  · simp only [declined] at h
    split at h <;> cases h
  · simp only [reports] at h
    have := orThrew_json h
    cases this
    exact .inl (error_mk _ _)
  obtain ⟨b, hb, -⟩ := _root_.id h1
  obtain ⟨b', hb', -⟩ := _root_.id g1
  have hargs : sampleArgs (some (withTask (sampleParams a) ttl)) = sampleView a := sampleArgs_params a [(lit "task", serMeta ttl)] rfl rfl rfl
  rw [enquiry_sample] at h1
  rcases ask_way few2 h1 (j := .sample (sampleView a)) ⟨rfl, hargs.symm⟩ (by rw [get_withTask _ _ (sampleParams_task a)]; exact fun h => nomatch h) (orThrew_created h2) g1 (orThrew_json g2) with h | ⟨k, e, n, u, k1, k2, k3, ⟨h, k4, k5⟩, k6⟩
  · exact .inl h
  · exact .inr ⟨p, k, p', b, b', env, env', e, n, h, u, k1, k2, hb, hb', k3, k4, k5, k6⟩

/-- C132, partial. If `RequestElicitationTask` of the server gave a task, and `GetTaskResult` for the id of that task gave a value that is not an error, then between the two a worker of
the client came to its end, whose elicitation handler, as registered at that time, was called with exactly the request of the call, and the value has the action, the content and the id
that the handler returned, and the id of the task. Missing: as for `C130_result_partial`. -/
theorem C132_elicitation_partial (s0 : SSelf D) (setup : List (CliOp D H)) (ops : List (Op D H)) (hc : Carried (World.init s0 ((Cli.init).run setup)) ops) :
    let w0 := World.init s0 ((Cli.init).run setup)
    let w := w0.run ops
    OwnNames w → w.server.cells.length < 2 ^ 32 → setup.length + ops.length + 1 < 2 ^ 64 →
      ∀ (i j : Nat) (x y : SCall D) (a : ElicitReq D) (ttl : Option Int) (t : Task) (m : Option (JVal D)) (v : JVal D),
      w.server.calls[i]? = some x → x.prog = sbody (.elicitTask a ttl) → x.st = .over (.val (.created t m)) →
      w.server.calls[j]? = some y → y.prog = sbody (.taskResult t.taskId) → y.st = .over (.val (.json v)) →
        isErrorObject v = true ∨ ∃ p k p' b b' env env' e n h u, p < k ∧ k < p' ∧ ops[p]? = some (.serve b env) ∧ ops[p']? = some (.serve b' env') ∧ ops[k]? = some (.own (.worker e n)) ∧
          (w0.run (ops.take k)).cli.elicit = some h ∧ e.elicit h a = .ret u ∧
          v.get? (lit "action") = some (.str u.action) ∧ v.get? (lit "content") = u.content ∧ v.get? (lit "elicitationId") = u.elicitationId.map .str ∧
          ∃ rel, v.get? (lit "_meta") = some (.obj rel) ∧ AMap.get rel (lit "modelcontextprotocol.io/related-task") = some (.obj [(lit "taskId", .str t.taskId)]) := by
  intro w0 w names few few2 i j x y a ttl t m v hx hxp hxs hy hyp hys
  rcases result_of s0 _ ops hc names few i x _ _ hx hxp hxs with ⟨h, -⟩ | ⟨o, kind, op, ⟨id, text, -, rfl⟩, -, -, h⟩ | ⟨p, id, env, σ, r, kind, h1, h2, -⟩
  · simp only [declined] at h
    split at h
    · split at h <;> cases h
    · cases h
  · cases h
  rcases result_of s0 _ ops hc names few j y _ _ hy hyp hys with ⟨h, -⟩ | ⟨o, kind, op, ⟨id, text, -, rfl⟩, -, -, h⟩ | ⟨p', id', env', σ', r', kind', g1, g2, -⟩
  · simp only [declined] at h
    split at h <;> cases h
  · simp only [reports] at h
    have := orThrew_json h
    cases this
    exact .inl (error_mk _ _)
  obtain ⟨b, hb, -⟩ := _root_.id h1
  obtain ⟨b', hb', -⟩ := _root_.id g1
  rw [enquiry_elicit] at h1
  rcases ask_way few2 h1 (j := .elicit a) ⟨rfl, (elicitOf_withTask a ttl).symm⟩ (by rw [get_withTask _ _ (elicitParams_task a)]; exact fun h => nomatch h) (orThrew_created h2) g1 (orThrew_json g2) with h | ⟨k, e, n, u, k1, k2, k3, ⟨h, x', k4, k5, c1, c2, c3, mo, c4⟩, k6⟩
  · exact .inl h
  · obtain ⟨d1, rel, d2, d3, -⟩ := k6.2 mo c4
    exact .inr ⟨p, k, p', b, b', env, env', e, n, h, x', k1, k2, hb, hb', k3, k4, k5, (d1 _ (by decide)).trans c1, (d1 _ (by decide)).trans c2, (d1 _ (by decide)).trans c3,
      rel, d2, d3⟩

end Verif.Ask
