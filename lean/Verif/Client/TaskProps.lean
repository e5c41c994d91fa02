import Verif.Client.RequestProps
import Verif.Server.TaskFlowProps

/-!
Tasks of the client. C76: a task request of the server starts a task; the task delivers what the same request without a task would have
returned, and it ends with its worker.
-/

set_option linter.unusedSectionVars false

namespace Verif

open Server Tasks Resource Validation Client
open Caps hiding Obj

variable {D H : Type}

/-! ### Specification -/

/-- A request to cancel task `id`. -/
def CancelsAt (id : Bytes) : CliOp D H → Prop
  | .request _ req => req.method = lit "tasks/cancel" ∧ taskIdParam req.params = some id
  | _ => False

/-- The kind a task has for its job. -/
def jobKind : Job D → Kind
  | .elicit _ => .elicitation
  | .sample _ => .createMessage

/-! ### Invariants -/

/-- What one step does to the tasks and workers. -/
inductive CliEffect (s s' : Cli D H) (op : CliOp D H) : Prop
  | same (ht : s'.tasks = s.tasks) (hw : s'.workers = s.workers)
  | gone (k : Nat) (env : CliEnv D H) (id : Bytes) (j : Job D) (ho : op = .worker env k) (hk : s.workers[k]? = some (id, j)) (he : jobEnds env s j = .other)
      (ht : s'.tasks = s.tasks) (hw : s'.workers = s.workers.eraseIdx k)
  | create (k : Kind) (ttl : Option Int) (now : Bytes) (j : Job D) (hk : k = jobKind j) (ht : s'.tasks = (s.tasks.create k ttl now).2)
      (hw : s'.workers = s.workers ++ [((s.tasks.create k ttl now).1.taskId, j)])
  | ended (k : Nat) (env : CliEnv D H) (id : Bytes) (j : Job D) (ho : op = .worker env k) (hk : s.workers[k]? = some (id, j)) (st : Bytes) (m : Option Bytes)
      (e : Bool) (p : JVal D) (now : Bytes) (ht : s'.tasks = (s.tasks.setTerminal id st m e p false now).2.2) (hw : s'.workers = s.workers.eraseIdx k)
  | cancelled (id : Bytes) (st : Bytes) (m : Option Bytes) (e : Bool) (p : JVal D) (now : Bytes) (hc : CancelsAt id op)
      (ht : s'.tasks = (s.tasks.setTerminal id st m e p true now).2.2) (hw : s'.workers = s.workers)

theorem cliEffect_start (s : Cli D H) (op : CliOp D H) (now : Bytes) (id : RpcId) (k : Kind) (ttl : Option Int) (j : Job D) (hk : k = jobKind j) :
    CliEffect s (startTask s now id k ttl j).2 op := .create k ttl now j hk rfl rfl

theorem cliEffect_elicit (env : CliEnv D H) (s : Cli D H) (req : Request D) (op : CliOp D H) : CliEffect s (cliElicit env s req).2 op := by
  unfold cliElicit
  split
  · exact .same rfl rfl
  · simp only
    split
    · exact .same rfl rfl
    · split
      · split
        · exact cliEffect_start _ _ _ _ _ _ _ rfl
        · exact .same rfl rfl
      · exact .same rfl rfl

theorem cliEffect_sample (env : CliEnv D H) (s : Cli D H) (req : Request D) (op : CliOp D H) : CliEffect s (cliSample env s req).2 op := by
  unfold cliSample
  split
  · split
    · split
      · exact .same rfl rfl
      · split
        · exact .same rfl rfl
        · exact cliEffect_start _ _ _ _ _ _ _ rfl
    · exact .same rfl rfl
  · exact .same rfl rfl

theorem cliEffect_step (s : Cli D H) (op : CliOp D H) : CliEffect s (s.step op) op := by
  cases op with
  | setStrict b => exact .same rfl rfl
  | setRoots h => exact .same rfl rfl
  | setElicit h => exact .same rfl rfl
  | setSampling h => exact .same rfl rfl
  | setSamplingCancelable h => exact .same rfl rfl
  | «initialize» c => exact .same rfl rfl
  | worker env k =>
    show CliEffect s (s.work env k) _
    unfold Cli.work
    cases hk : s.workers[k]? with
    | none => exact .same rfl rfl
    | some w =>
      obtain ⟨id, j⟩ := w
      simp only
      cases he : jobEnds env s j with
      | never => exact .same rfl rfl
      | other => exact .gone k env id j rfl hk he rfl rfl
      | std e => exact .ended k env id j rfl hk _ _ _ _ _ rfl rfl
      | ret v =>
        simp only
        split
        · exact .ended k env id j rfl hk _ _ _ _ _ rfl rfl
        · exact .ended k env id j rfl hk _ _ _ _ _ rfl rfl
  | request env req =>
    show CliEffect s (onRequest env s req).2 _
    unfold onRequest
    refine iteP (P := fun o : Out D × Cli D H => CliEffect s o.2 (.request env req)) (fun hm => .same rfl rfl) (fun _ => ?_)
    refine iteP (P := fun o : Out D × Cli D H => CliEffect s o.2 (.request env req)) (fun hm => .same rfl rfl) (fun _ => ?_)
    refine iteP (P := fun o : Out D × Cli D H => CliEffect s o.2 (.request env req)) (fun hm => .same rfl rfl) (fun _ => ?_)
    refine iteP (P := fun o : Out D × Cli D H => CliEffect s o.2 (.request env req)) (fun hm => .same rfl rfl) (fun _ => ?_)
    refine iteP (P := fun o : Out D × Cli D H => CliEffect s o.2 (.request env req)) (fun hm => .same rfl rfl) (fun _ => ?_)
    refine iteP (P := fun o : Out D × Cli D H => CliEffect s o.2 (.request env req)) (fun hm => ?_) (fun _ => ?_)
    · rcases handleCancel_tasks s.tasks (cliAllows s (·.cancel)) req.params env.now with h | ⟨id, q, n, hid, h⟩
      · exact .same h rfl
      · exact .cancelled id _ _ _ _ _ ⟨hm, hid⟩ h rfl
    refine iteP (P := fun o : Out D × Cli D H => CliEffect s o.2 (.request env req)) (fun hm => cliEffect_elicit _ _ _ _) (fun _ => ?_)
    exact iteP (P := fun o : Out D × Cli D H => CliEffect s o.2 (.request env req)) (fun hm => cliEffect_sample _ _ _ _) (fun _ => .same rfl rfl)

/-- The store is in order; every worker has a task of the kind of its job; a task without an outcome is working. -/
structure CliGood (n : Nat) (s : Cli D H) : Prop where
  store : ∃ k, k ≤ n ∧ Inv k s.tasks
  nodup : (s.workers.map (·.1)).Nodup
  known : ∀ w ∈ s.workers, ∃ r, AMap.get s.tasks.records w.1 = some r ∧ r.kind = jobKind w.2
  working : ∀ id r, AMap.get s.tasks.records id = some r → r.payload = none → r.task.status = lit "working"

theorem cliGood_init : CliGood 0 (Cli.init : Cli D H) :=
  ⟨⟨0, Nat.le_refl _, inv_init⟩, List.nodup_nil, (fun w hw => by cases hw), (fun id r h => by cases h)⟩

theorem cliGood_mono {n m : Nat} {s : Cli D H} (h : CliGood n s) (hnm : n ≤ m) : CliGood m s :=
  ⟨by obtain ⟨k, hk, hi⟩ := h.store; exact ⟨k, by omega, hi⟩, h.nodup, h.known, h.working⟩

theorem cliGood_terminal {n : Nat} {s s' : Cli D H} (h : CliGood n s) (i stt : Bytes) (m : Option Bytes) (e : Bool) (p : JVal D) (rs : Bool) (now : Bytes)
    (ht : s'.tasks = (s.tasks.setTerminal i stt m e p rs now).2.2) (hw : s'.workers.Sublist s.workers) : CliGood n s' := by
  obtain ⟨k, hk, hi⟩ := h.store
  refine ⟨⟨k, hk, by rw [ht]; exact inv_setTerminal hi _ _ _ _ _ _ _⟩, h.nodup.sublist (hw.map _), ?_, ?_⟩
  · intro w hwm
    rw [ht]
    obtain ⟨r, hr, hkind⟩ := h.known w (hw.subset hwm)
    rcases setTerminal_cases s.tasks i stt m e p rs now with h1 | ⟨r0, hg, _, _, h1⟩
    · rw [h1]; exact ⟨r, hr, hkind⟩
    · rw [h1]; simp only
      rw [AMap.get_put]
      split
      · rename_i he
        refine ⟨_, rfl, ?_⟩
        rw [← he, hr] at hg
        cases hg; exact hkind
      · exact ⟨r, hr, hkind⟩
  · intro id r hr hp
    rw [ht] at hr
    rcases setTerminal_cases s.tasks i stt m e p rs now with h1 | ⟨r0, hg, _, _, h1⟩
    · rw [h1] at hr; exact h.working id r hr hp
    · rw [h1] at hr; simp only at hr
      rw [AMap.get_put] at hr
      split at hr
      · cases hr; cases hp
      · exact h.working id r hr hp

theorem cliGood_same {n : Nat} {s s' : Cli D H} (h : CliGood n s) (ht : s'.tasks = s.tasks) (hw : s'.workers.Sublist s.workers) : CliGood n s' :=
  ⟨by rw [ht]; exact h.store, h.nodup.sublist (hw.map _), fun w hwm => by rw [ht]; exact h.known w (hw.subset hwm), by rw [ht]; exact h.working⟩

theorem cliGood_step {n : Nat} {s : Cli D H} (h : CliGood n s) (hn : n + 2 < 2 ^ 64) (op : CliOp D H) : CliGood (n + 1) (s.step op) := by
  rcases cliEffect_step s op with ⟨ht, hw⟩ | ⟨k, env, id, j, _, _, _, ht, hw⟩ | ⟨k, ttl, now, j, hk, ht, hw⟩ | ⟨k, env, id, j, _, _, st, m, e, p, now, ht, hw⟩ |
    ⟨id, st, m, e, p, now, _, ht, hw⟩
  · exact cliGood_mono (cliGood_same h ht (by rw [hw]; exact List.Sublist.refl _)) (by omega)
  · exact cliGood_mono (cliGood_same h ht (by rw [hw]; exact List.eraseIdx_sublist _ _)) (by omega)
  · obtain ⟨q, hq, hi⟩ := h.store
    have hf := fresh_id hi
    refine ⟨⟨q + 1, by omega, by rw [ht]; exact inv_create hi (by omega) _ _ _⟩, ?_, ?_, ?_⟩
    · rw [hw]
      simp only [List.map_append, List.map_cons, List.map_nil]
      rw [List.nodup_append]
      refine ⟨h.nodup, by simp, ?_⟩
      intro a ha b hb e
      rw [List.mem_singleton] at hb
      subst hb e
      obtain ⟨w, hwm, hwe⟩ := List.mem_map.1 ha
      obtain ⟨r, hr, _⟩ := h.known w hwm
      rw [hwe] at hr
      rw [show (s.tasks.create k ttl now).1.taskId = lit "task-" ++ natDec s.tasks.nextId from rfl, hf] at hr
      cases hr
    · intro w hwm
      rw [hw] at hwm
      rw [ht]
      rcases List.mem_append.1 hwm with hwm | hwm
      · obtain ⟨r, hr, hkind⟩ := h.known w hwm
        obtain ⟨r', h', hk', _⟩ := step_record hi (.create k ttl now) hr
        exact ⟨r', h', by rw [hk', hkind]⟩
      · rw [List.mem_singleton] at hwm
        subst hwm
        exact ⟨_, AMap.get_put_self _ _ _, hk⟩
    · intro id r hr hp
      rw [ht] at hr
      change AMap.get (AMap.put s.tasks.records (lit "task-" ++ natDec s.tasks.nextId) _) id = some r at hr
      rw [AMap.get_put] at hr
      split at hr
      · cases hr; rfl
      · exact h.working id r hr hp
  · exact cliGood_mono (cliGood_terminal h _ _ _ _ _ _ _ ht (by rw [hw]; exact List.eraseIdx_sublist _ _)) (by omega)
  · exact cliGood_mono (cliGood_terminal h _ _ _ _ _ _ _ ht (by rw [hw]; exact List.Sublist.refl _)) (by omega)

theorem cliGood_run {ops : List (CliOp D H)} : ∀ {n : Nat} {s : Cli D H}, CliGood n s → n + ops.length + 1 < 2 ^ 64 → CliGood (n + ops.length) (s.run ops) := by
  induction ops with
  | nil => intro n s h _; exact h
  | cons op ops ih =>
    intro n s h hn
    simp only [List.length_cons] at hn ⊢
    have := ih (cliGood_step h (by omega) op) (by omega)
    rw [show n + (ops.length + 1) = n + 1 + ops.length by omega]
    exact this

theorem cliGood_reach (ops : List (CliOp D H)) (h : ops.length + 1 < 2 ^ 64) : CliGood ops.length ((Cli.init : Cli D H).run ops) := by
  have := cliGood_run (ops := ops) (cliGood_init (D := D) (H := H)) (by omega)
  rwa [Nat.zero_add] at this

/-- A record with an outcome never changes again. -/
theorem cliFinished_run {ops : List (CliOp D H)} : ∀ {n : Nat} {s : Cli D H}, CliGood n s → n + ops.length + 1 < 2 ^ 64 → ∀ {id r},
    AMap.get s.tasks.records id = some r → r.payload.isSome → AMap.get (s.run ops).tasks.records id = some r := by
  induction ops with
  | nil => intro n s _ _ id r h _; exact h
  | cons op ops ih =>
    intro n s h hn id r hr hp
    simp only [List.length_cons] at hn
    refine ih (cliGood_step h (by omega) op) (by omega) ?_ hp
    obtain ⟨k, _, hi⟩ := h.store
    have one : ∀ o : SOp D, (s.step op).tasks = s.tasks.step o → AMap.get (s.step op).tasks.records id = some r := by
      intro o h1
      rw [h1]
      obtain ⟨r', h2, _, _, _, _, h3⟩ := step_record hi o hr
      rw [h2, h3 (.inl hp)]
    have term : ∀ i st m e p rs now, (s.step op).tasks = (s.tasks.setTerminal i st m e p rs now).2.2 → AMap.get (s.step op).tasks.records id = some r := by
      intro i st m e p rs now h1
      rw [h1]
      rcases setTerminal_cases s.tasks i st m e p rs now with h2 | ⟨r0, hg, hp0, _, h2⟩
      · rw [h2]; exact hr
      · rw [h2]; simp only
        rw [AMap.get_put_ne _ _ ?_]
        · exact hr
        · intro e
          rw [e, hg] at hr; cases hr
          rw [hp0] at hp; cases hp
    rcases cliEffect_step s op with ⟨ht, hw⟩ | ⟨k, env, id, j, _, _, _, ht, hw⟩ | ⟨k, ttl, now, j, hk, ht, hw⟩ | ⟨k, env, id, j, _, _, st, m, e, p, now, ht, hw⟩ |
      ⟨id, st, m, e, p, now, _, ht, hw⟩
    · rw [ht]; exact hr
    · rw [ht]; exact hr
    · exact one (.create k ttl now) ht
    · exact term _ _ _ _ _ _ _ ht
    · exact term _ _ _ _ _ _ _ ht

/-! ### C76: tasks start -/

theorem get_withTask (m : Validation.Obj D) (ttl : Option Int) (h : AMap.get m (lit "task") = none) : taskMeta (some (withTask m ttl)) = some ttl := by
  have hg : AMap.get (m ++ [(lit "task", (serMeta ttl : JVal D))]) (lit "task") = some (serMeta ttl) := by
    rw [AMap.get_append, h]; rfl
  unfold taskMeta withTask
  simp only [JVal.objAt, JVal.get?, hg]
  cases ttl <;> rfl

theorem sampleParams_task (p : SampleReq D) : AMap.get (sampleParams p) (lit "task") = none := by
  simp (disch := decide) only [sampleParams, AMap.get_append, get_optField_ne, Option.none_or, Option.or_none]
  rfl

theorem elicitParams_task (r : ElicitReq D) : AMap.get (elicitParams r) (lit "task") = none := by
  obtain ⟨a, b, c, d, e, f, g⟩ := r
  cases c <;> cases d <;> cases e <;> cases f <;> cases g <;> rfl

theorem elicitOf_withTask (r : ElicitReq D) (ttl : Option Int) : elicitOf (withTask (elicitParams r) ttl) = r := by
  obtain ⟨a, b, c, d, e, f, g⟩ := r
  cases c <;> cases d <;> cases e <;> cases f <;> cases g <;> rfl

theorem elicitParams_withTask_valid (r : ElicitReq D) (ttl : Option Int) : validateElicitationRequest (withTask (elicitParams r) ttl) = true := by
  obtain ⟨a, b, c, d, e, f, g⟩ := r
  cases c <;> cases d <;> cases e <;> cases f <;> cases g <;> rfl

theorem started (s : Cli D H) (now : Bytes) (i : RpcId) (k : Kind) (ttl : Option Int) (j : Job D) :
    (startTask s now i k ttl j).1 = .answer ⟨i, some (serCreate (s.tasks.create k ttl now).1 none), none⟩ ∧
    (startTask s now i k ttl j).2.tasks.getTask (s.tasks.create k ttl now).1.taskId = some (s.tasks.create k ttl now).1 ∧
    ((s.tasks.create k ttl now).1.taskId, j) ∈ (startTask s now i k ttl j).2.workers := by
  refine ⟨?_, ?_, ?_⟩
  · unfold startTask
    simp only
    rw [checked_ok (fun _ => serCreate_valid _ _)]; rfl
  · simp only [startTask, Store.getTask, Store.create]
    rw [AMap.get_put_self]; rfl
  · simp [startTask]

/-- **C76.** `RequestCreateMessageTask` at a client that takes such tasks returns a task that the client has from then on under its id,
working, with the time to live asked for, and a worker that will call the sampling handler with exactly the messages and options asked
for. -/
theorem C76_sampling_started (env : CliEnv D H) (s : Cli D H) (ha : cliAllows s (·.createMessage) = true) (hh : s.sampler.isSome) (i : RpcId) (strict : Bool)
    (threw : Bytes) (p : SampleReq D) (ttl : Option Int) (hm : s.strict = true → ∀ m ∈ p.messages, isSamplingMessage m = true) :
    ∃ o t, ClientYields env s i "sampling/createMessage" (some (withTask (sampleParams p) ttl)) o ∧ sampleTask strict threw o = .ok (t, none) ∧
      t.status = lit "working" ∧ t.ttl = ttl ∧
      (onRequest env s ⟨i, lit "sampling/createMessage", some (withTask (sampleParams p) ttl)⟩).2.tasks.getTask t.taskId = some t ∧
      (t.taskId, .sample (sampleView p)) ∈ (onRequest env s ⟨i, lit "sampling/createMessage", some (withTask (sampleParams p) ttl)⟩).2.workers := by
  obtain ⟨h, hh⟩ := Option.isSome_iff_exists.1 hh
  have hv : (s.strict && !validateCreateMessageParams ((some (withTask (sampleParams p) ttl)).getD (.obj []))) = false := by
    cases hst : s.strict with
    | false => rfl
    | true =>
      have := sampleParams_valid p [(lit "task", serMeta ttl)] (hm hst)
      simp only [Option.getD_some, withTask, this]; rfl
  have hx : onRequest env s ⟨i, lit "sampling/createMessage", some (withTask (sampleParams p) ttl)⟩ =
      startTask s env.now i .createMessage ttl (.sample (sampleView p)) := by
    rw [onRequest_sample _ _ _ rfl]
    unfold cliSample
    simp only [get_withTask _ _ (sampleParams_task p), ha, if_true, hh, hv, Bool.false_eq_true, if_false]
    rw [show sampleArgs (some (withTask (sampleParams p) ttl)) = sampleView p from sampleArgs_params p _ rfl rfl rfl]
  obtain ⟨h1, h2, h3⟩ := started s env.now i .createMessage ttl (.sample (sampleView p))
  refine ⟨.resp ⟨i, some (serCreate (s.tasks.create .createMessage ttl env.now).1 none), none⟩, (s.tasks.create .createMessage ttl env.now).1,
    ⟨_, rfl, by rw [hx]; exact h1⟩, ?_, rfl, rfl, ?_, ?_⟩
  · simp only [sampleTask, strictCall, serCreate_valid, Bool.not_true, Bool.and_false, Bool.false_eq_true, if_false]
    exact congrArg Except.ok (Prod.ext (serTask_parse _) rfl)
  · rw [hx]; exact h2
  · rw [hx]; exact h3

/-- **C76.** The same for `RequestElicitationTask`. -/
theorem C76_elicitation_started (env : CliEnv D H) (s : Cli D H) (ha : cliAllows s (·.elicitationCreate) = true) (hh : s.elicit.isSome) (i : RpcId) (strict : Bool)
    (threw : Bytes) (r : ElicitReq D) (ttl : Option Int) :
    ∃ o t, ClientYields env s i "elicitation/create" (some (withTask (elicitParams r) ttl)) o ∧ elicitTask strict threw o = .ok (t, none) ∧
      t.status = lit "working" ∧ t.ttl = ttl ∧
      (onRequest env s ⟨i, lit "elicitation/create", some (withTask (elicitParams r) ttl)⟩).2.tasks.getTask t.taskId = some t ∧
      (t.taskId, .elicit r) ∈ (onRequest env s ⟨i, lit "elicitation/create", some (withTask (elicitParams r) ttl)⟩).2.workers := by
  obtain ⟨h, hh⟩ := Option.isSome_iff_exists.1 hh
  have hx : onRequest env s ⟨i, lit "elicitation/create", some (withTask (elicitParams r) ttl)⟩ = startTask s env.now i .elicitation ttl (.elicit r) := by
    rw [onRequest_elicit _ _ _ rfl]
    unfold cliElicit
    simp only [hh, Option.getD_some, elicitParams_withTask_valid, Bool.not_true, Bool.and_false, Bool.false_eq_true, if_false,
      get_withTask _ _ (elicitParams_task r), ha, if_true, elicitOf_withTask]
  obtain ⟨h1, h2, h3⟩ := started s env.now i .elicitation ttl (.elicit r)
  refine ⟨.resp ⟨i, some (serCreate (s.tasks.create .elicitation ttl env.now).1 none), none⟩, (s.tasks.create .elicitation ttl env.now).1,
    ⟨_, rfl, by rw [hx]; exact h1⟩, ?_, rfl, rfl, ?_, ?_⟩
  · simp only [elicitTask, strictCall, serCreate_valid, Bool.not_true, Bool.and_false, Bool.false_eq_true, if_false]
    exact congrArg Except.ok (Prod.ext (serTask_parse _) rfl)
  · rw [hx]; exact h2
  · rw [hx]; exact h3

/-- **C76.** A client that did not announce such tasks starts none: the request fails and nothing changes. -/
theorem C76_not_announced (env : CliEnv D H) (s : Cli D H) (req : Request D) (ht : AsksTask req) :
    (req.method = lit "sampling/createMessage" → cliAllows s (·.createMessage) = false → ∃ e, onRequest env s req = (.answer ⟨req.id, none, some e⟩, s)) ∧
    (req.method = lit "elicitation/create" → cliAllows s (·.elicitationCreate) = false → ∃ e, onRequest env s req = (.answer ⟨req.id, none, some e⟩, s)) := by
  rw [← taskMeta_iff] at ht
  obtain ⟨ttl, ht⟩ := Option.isSome_iff_exists.1 ht
  constructor
  · intro hm ha
    rw [onRequest_sample _ _ _ hm]
    simp only [cliSample, ht, ha, Bool.false_eq_true, if_false]
    exact ⟨_, rfl⟩
  · intro hm ha
    rw [onRequest_elicit _ _ _ hm]
    unfold cliElicit
    split
    · exact ⟨_, rfl⟩
    · simp only
      split
      · exact ⟨_, rfl⟩
      · simp only [ht, ha, Bool.false_eq_true, if_false]
        exact ⟨_, rfl⟩

/-! ### C76: tasks deliver -/

theorem attach_jobValid (id : Bytes) (j : Job D) (v : JVal D) (h : jobValid j v = true) : jobValid j (attachResult v id) = true := by
  cases j with
  | elicit r =>
    change validateElicitationResult v = true at h
    show validateElicitationResult (attachResult v id) = true
    cases v <;> try (cases h; done)
    simp only [attachResult, validateElicitationResult, isStringField, isOptionalStringField, need, AMap.get_put_ne _ _ (show lit "action" ≠ lit "_meta" by decide),
      AMap.get_put_ne _ _ (show lit "content" ≠ lit "_meta" by decide), AMap.get_put_ne _ _ (show lit "elicitationId" ≠ lit "_meta" by decide)] at h ⊢
    exact h
  | sample a =>
    change validateCreateMessageResult v = true at h
    show validateCreateMessageResult (attachResult v id) = true
    cases v <;> try (cases h; done)
    simp only [attachResult, validateCreateMessageResult, isStringField, isOptionalStringField, need, AMap.get_put_ne _ _ (show lit "model" ≠ lit "_meta" by decide),
      AMap.get_put_ne _ _ (show lit "role" ≠ lit "_meta" by decide), AMap.get_put_ne _ _ (show lit "content" ≠ lit "_meta" by decide),
      AMap.get_put_ne _ _ (show lit "stopReason" ≠ lit "_meta" by decide)] at h ⊢
    exact h

theorem cliValid_job (j : Job D) (v : JVal D) : cliValidFor (jobKind j) v = jobValid j v := by cases j <;> rfl

/-- What `tasks/result` answers once the worker has ended. -/
theorem cli_delivers (ops more : List (CliOp D H)) (hn : ops.length + more.length + 2 < 2 ^ 64) (env : CliEnv D H) (k : Nat) (id : Bytes) (j : Job D) (q : RpcId)
    (hw : ((Cli.init : Cli D H).run ops).workers[k]? = some (id, j)) (hb : ((Cli.init : Cli D H).run ops).tasks.wait id = .blocked)
    (hcap : ((((Cli.init : Cli D H).run ops).work env k).run more).caps.tasks.isSome) :
    (∀ w, jobEnds env ((Cli.init : Cli D H).run ops) j = .std w →
      cliTaskResult ((((Cli.init : Cli D H).run ops).work env k).run more) (askResult q id) = .answer ⟨q, none, some (attachError (mkErrorObj Code.internalError w none) id)⟩) ∧
    (∀ v, jobEnds env ((Cli.init : Cli D H).run ops) j = .ret v →
      cliTaskResult ((((Cli.init : Cli D H).run ops).work env k).run more) (askResult q id) =
        if ((Cli.init : Cli D H).run ops).strict && !jobValid j v then .answer ⟨q, none, some (attachError (mkErrorObj Code.internalError (jobBad j) none) id)⟩
        else checked ((((Cli.init : Cli D H).run ops).work env k).run more).strict (jobValid j) (lit "Invalid task result shape") q (attachResult v id)) := by
  have hg : CliGood ops.length ((Cli.init : Cli D H).run ops) := cliGood_reach ops (by omega)
  generalize (Cli.init : Cli D H).run ops = s at *
  have hg1 : CliGood (ops.length + 1) (s.work env k) := cliGood_step hg (by omega) (.worker env k)
  generalize hs' : (s.work env k).run more = s' at *
  obtain ⟨ct, hcap⟩ := Option.isSome_iff_exists.1 hcap
  obtain ⟨r0, hr0, hp0⟩ := wait_blocked hb
  have hs0 := hg.working id r0 hr0 hp0
  have hk0 : r0.kind = jobKind j := by
    obtain ⟨r, hr, hkr⟩ := hg.known (id, j) (List.mem_of_getElem? hw)
    simp only at hr hkr
    rw [hr0] at hr; cases hr; exact hkr
  have hnt : ¬ ((r0.payload.isSome || isTerminal r0.task.status) = true) := by rw [hp0, hs0]; exact not_ended
  have settle : ∀ st m e p, (s.work env k).tasks = (s.tasks.complete id st m e p env.now).2.2 →
      ∃ r, AMap.get s'.tasks.records id = some r ∧ r.kind = jobKind j ∧ r.isError = e ∧ r.payload = some p := by
    intro st m e p ht
    have h1 : AMap.get (s.work env k).tasks.records id = some ⟨{ r0.task with status := st, statusMessage := m, lastUpdatedAt := env.now }, r0.kind, r0.stopped || false, e, some p⟩ := by
      rw [ht]
      simp only [Store.complete, Store.setTerminal, hr0, if_neg hnt]
      exact AMap.get_put_self _ _ _
    have h2 := cliFinished_run (ops := more) hg1 (by omega) h1 rfl
    rw [hs'] at h2
    exact ⟨_, h2, hk0, rfl, rfl⟩
  have answer : ∀ e p, (∃ r, AMap.get s'.tasks.records id = some r ∧ r.kind = jobKind j ∧ r.isError = e ∧ r.payload = some p) →
      cliTaskResult s' (askResult q id) = if e then .answer ⟨q, none, some (attachError p id)⟩
        else checked s'.strict (jobValid j) (lit "Invalid task result shape") q (attachResult p id) := by
    rintro e p ⟨r, hr, h1, h2, h3⟩
    unfold cliTaskResult
    rw [askResult_id, hcap]
    simp only [Store.wait, hr, h2, h3]
    cases e
    · simp only [h1]
      rw [show cliValidFor (jobKind j) = jobValid j from funext (fun v => cliValid_job j v)]
      rfl
    · rfl
  refine ⟨fun w he => ?_, fun v he => ?_⟩
  · have hwork : (s.work env k).tasks = (s.tasks.complete id (lit "failed") (some w) true (mkErrorObj Code.internalError w none) env.now).2.2 := by
      unfold Cli.work
      rw [hw]
      simp only [he]
    rw [answer true _ (settle _ _ _ _ hwork)]
    rfl
  · by_cases hv : (s.strict && !jobValid j v) = true
    · have hwork : (s.work env k).tasks = (s.tasks.complete id (lit "failed") (some (jobBad j)) true (mkErrorObj Code.internalError (jobBad j) none) env.now).2.2 := by
        unfold Cli.work
        rw [hw]
        simp only [he, hv, if_true]
      rw [answer true _ (settle _ _ _ _ hwork), if_pos hv]
      rfl
    · have hwork : (s.work env k).tasks = (s.tasks.complete id (lit "completed") none false v env.now).2.2 := by
        unfold Cli.work
        rw [hw]
        simp only [he]
        rw [if_neg hv]
      rw [answer false _ (settle _ _ _ _ hwork), if_neg hv]
      rfl

/-- The last step of both delivery theorems. -/
theorem same_checked (i q : RpcId) (id : Bytes) (j : Job D) (m : Validation.Obj D) (b b' : Bool) (hb : b' = b) :
    SameOutcome id (checked b (jobValid j) (jobBad j) i (.obj m))
      (if b && !jobValid j (.obj m) then .answer ⟨q, none, some (attachError (mkErrorObj Code.internalError (jobBad j) none) id)⟩
        else checked b' (jobValid j) (lit "Invalid task result shape") q (attachResult (.obj m) id)) := by
  subst hb
  by_cases hv : (b' && !jobValid j (.obj m)) = true
  · rw [if_pos hv]
    refine .inr ⟨i, q, _, _, ?_, rfl, (attachError_spec _ _).1, (attachError_spec _ _).2⟩
    unfold checked
    rw [if_pos hv]; rfl
  · rw [if_neg hv]
    refine .inl ⟨i, q, .obj m, attachResult (.obj m) id, ?_, ?_, attachResult_spec id _⟩
    · unfold checked
      rw [if_neg hv]; rfl
    · unfold checked
      rw [if_neg]
      · rfl
      · intro hx
        apply hv
        simp only [Bool.and_eq_true, Bool.not_eq_true'] at hx ⊢
        refine ⟨hx.1, ?_⟩
        cases hz : jobValid j (.obj m) with
        | false => rfl
        | true => have := attach_jobValid id j _ hz; rw [this] at hx; exact absurd hx.2 (by decide)

/-- **C76.** Whatever else happens before and after: once the worker of an elicitation task ends, asking for the result of the task (unless it
was cancelled before) gives what the same request without a task would have given at that moment, with the related-task metadata added. -/
theorem C76_elicitation_delivers (ops more : List (CliOp D H)) (hn : ops.length + more.length + 2 < 2 ^ 64) (env env' : CliEnv D H)
    (k : Nat) (id : Bytes) (r : ElicitReq D) (h : H) (i q : RpcId) :
    let s := (Cli.init : Cli D H).run ops
    let s' := (s.work env k).run more
    s.workers[k]? = some (id, .elicit r) → s.tasks.wait id = .blocked → s.elicit = some h → Tame (env.elicit h r) →
    s'.strict = s.strict → s'.caps.tasks.isSome →
    SameOutcome id (onRequest env s ⟨i, lit "elicitation/create", some (.obj (elicitParams r))⟩).1 (onRequest env' s' (askResult q id)).1 := by
  intro s s' hw hb hh ht hst hcap
  obtain ⟨d1, d2⟩ := cli_delivers ops more hn env k id (.elicit r) q hw hb hcap
  rw [onRequest_result env' s' _ rfl, onRequest_elicit _ _ _ rfl]
  simp only [cliElicit, hh, Option.getD_some, elicitParams_valid, Bool.not_true, Bool.and_false, Bool.false_eq_true, if_false, elicitParams_noTask,
    elicitSync, elicitOf_params]
  rcases ht with ⟨x, hx⟩ | ⟨w, hx⟩
  · rw [hx]
    have he : jobEnds env ((Cli.init : Cli D H).run ops) (.elicit r) = .ret (elicitResJson x) := by
      simp only [jobEnds]
      rw [show ((Cli.init : Cli D H).run ops).elicit = some h from hh]
      simp only [hx]
    rw [d2 _ he]
    exact same_checked i q id (.elicit r) _ s.strict s'.strict hst
  · rw [hx]
    have he : jobEnds env ((Cli.init : Cli D H).run ops) (.elicit r) = .std w := by
      simp only [jobEnds]
      rw [show ((Cli.init : Cli D H).run ops).elicit = some h from hh]
      simp only [hx]
    rw [d1 _ he]
    exact .inr ⟨i, q, _, _, rfl, rfl, (attachError_spec _ _).1, (attachError_spec _ _).2⟩

/-- **C76.** The same for sampling tasks, for handlers that return an object or throw a standard exception and requests that are not
cancelled. -/
theorem C76_sampling_delivers (ops more : List (CliOp D H)) (hn : ops.length + more.length + 2 < 2 ^ 64) (env env' : CliEnv D H) (hc : env.cancelled = false)
    (k : Nat) (id : Bytes) (p : SampleReq D) (h : H) (i q : RpcId) :
    let s := (Cli.init : Cli D H).run ops
    let s' := (s.work env k).run more
    s.workers[k]? = some (id, .sample (sampleView p)) → s.tasks.wait id = .blocked → s.sampler = some h →
    (∃ m, env.sample h (sampleView p) = .ret (.obj m)) ∨ (∃ w, env.sample h (sampleView p) = .std w) →
    (s.strict = true → ∀ m ∈ p.messages, isSamplingMessage m = true) → s'.strict = s.strict → s'.caps.tasks.isSome →
    SameOutcome id (onRequest env s ⟨i, lit "sampling/createMessage", some (.obj (sampleParams p))⟩).1 (onRequest env' s' (askResult q id)).1 := by
  intro s s' hw hb hh ht hm hst hcap
  obtain ⟨d1, d2⟩ := cli_delivers ops more hn env k id (.sample (sampleView p)) q hw hb hcap
  have ha : sampleArgs (some (.obj (sampleParams p))) = sampleView p := by
    have := sampleArgs_params p [] rfl rfl rfl
    rwa [List.append_nil] at this
  have hv : (s.strict && !validateCreateMessageParams ((some (JVal.obj (sampleParams p))).getD (.obj []))) = false := by
    cases hst : s.strict with
    | false => rfl
    | true =>
      have := sampleParams_valid p [] (hm hst)
      rw [List.append_nil] at this
      simp [this]
  have he : jobEnds env ((Cli.init : Cli D H).run ops) (.sample (sampleView p)) = env.sample h (sampleView p) := by
    simp only [jobEnds]
    rw [show ((Cli.init : Cli D H).run ops).sampler = some h from hh]
  rw [onRequest_result env' s' _ rfl, onRequest_sample _ _ _ rfl]
  simp only [cliSample, sampleParams_noTask, sampleSync, hh, hv, Bool.false_eq_true, if_false, ha]
  rcases ht with ⟨m, hx⟩ | ⟨w, hx⟩
  · rw [hx] at he ⊢
    simp only [hc, Bool.false_eq_true, if_false]
    rw [d2 _ he]
    exact same_checked i q id (.sample (sampleView p)) _ s.strict s'.strict hst
  · rw [hx] at he ⊢
    rw [d1 _ he]
    exact .inr ⟨i, q, _, _, rfl, rfl, (attachError_spec _ _).1, (attachError_spec _ _).2⟩

/-! ### C76: tasks end -/

theorem eraseIdx_gone {T : Type} {l : List (Bytes × T)} {k : Nat} {id : Bytes} {j : T} (hnd : (l.map (·.1)).Nodup) (hk : l[k]? = some (id, j)) :
    ∀ w ∈ l.eraseIdx k, w.1 ≠ id := by
  intro w hwm e
  obtain ⟨q, hq, hqk, hqe⟩ := List.mem_eraseIdx_iff_getElem.1 hwm
  obtain ⟨hkl, hke⟩ := List.getElem?_eq_some_iff.1 hk
  rw [List.nodup_iff_pairwise_ne, List.pairwise_iff_getElem] at hnd
  have hab : l[q].1 = l[k].1 := by rw [hqe, hke, e]
  rcases Nat.lt_trichotomy q k with h | h | h
  · exact absurd (by rw [List.getElem_map, List.getElem_map]; exact hab) (hnd q k (by simpa using hq) (by simpa using hkl) h)
  · exact hqk h
  · exact absurd (by rw [List.getElem_map, List.getElem_map]; exact hab.symm) (hnd k q (by simpa using hkl) (by simpa using hq) h)

theorem wait_setTerminal_ne {st : Store D} {id : Bytes} (hwait : st.wait id = .blocked) (i stt : Bytes) (m : Option Bytes) (e : Bool) (p : JVal D) (rs : Bool)
    (now : Bytes) (hne : i ≠ id) : (st.setTerminal i stt m e p rs now).2.2.wait id = .blocked := by
  rcases setTerminal_cases st i stt m e p rs now with h1 | ⟨r0, _, _, _, h1⟩
  · rw [h1]; exact hwait
  · rw [h1]
    unfold Store.wait at hwait ⊢
    simp only
    rw [AMap.get_put_ne _ _ (Ne.symm hne)]; exact hwait

theorem wait_create_ne {st : Store D} {id : Bytes} (k : Kind) (ttl : Option Int) (now : Bytes) (hne : lit "task-" ++ natDec st.nextId ≠ id) :
    (st.create k ttl now).2.wait id = st.wait id := by
  unfold Store.wait
  show (match AMap.get (AMap.put st.records (lit "task-" ++ natDec st.nextId) _) id with | none => _ | some r => _) = _
  rw [AMap.get_put_ne _ _ (Ne.symm hne)]
  rfl

/-- A task without an outcome and without a worker stays so unless it is cancelled. -/
theorem cli_orphan (id : Bytes) (l : List (CliOp D H)) : ∀ (n : Nat) (t : Cli D H), CliGood n t → n + l.length + 1 < 2 ^ 64 → (∀ w ∈ t.workers, w.1 ≠ id) →
    t.tasks.wait id = .blocked → (∀ op ∈ l, ¬ CancelsAt id op) → (t.run l).tasks.wait id = .blocked := by
  induction l with
  | nil => intro n t _ _ _ h _; exact h
  | cons op l ih =>
    intro n t hgt hn hgone hwait hc
    simp only [List.length_cons] at hn
    have hgt' := cliGood_step hgt (by omega) op
    obtain ⟨q, hq, hi⟩ := hgt.store
    have hstep : (∀ w ∈ (t.step op).workers, w.1 ≠ id) ∧ (t.step op).tasks.wait id = .blocked := by
      rcases cliEffect_step t op with ⟨ht, hw⟩ | ⟨k, env, i, j, _, _, _, ht, hw⟩ | ⟨k, ttl, now, j, hk, ht, hw⟩ | ⟨k, env, i, j, _, hk, st, m, e, p, now, ht, hw⟩ |
        ⟨i, st, m, e, p, now, hcn, ht, hw⟩
      · rw [ht, hw]; exact ⟨hgone, hwait⟩
      · rw [ht, hw]; exact ⟨fun w hwm => hgone w ((List.eraseIdx_sublist _ _).subset hwm), hwait⟩
      · rw [ht, hw]
        have hne : lit "task-" ++ natDec t.tasks.nextId ≠ id := by
          intro e
          have hf := fresh_id hi
          rw [e] at hf
          unfold Store.wait at hwait
          rw [hf] at hwait; cases hwait
        refine ⟨?_, by rw [wait_create_ne _ _ _ hne]; exact hwait⟩
        intro w hwm
        rcases List.mem_append.1 hwm with hwm | hwm
        · exact hgone w hwm
        · rw [List.mem_singleton] at hwm; subst hwm; exact hne
      · rw [ht, hw]
        exact ⟨fun w hwm => hgone w ((List.eraseIdx_sublist _ _).subset hwm), wait_setTerminal_ne hwait _ _ _ _ _ _ _ (hgone _ (List.mem_of_getElem? hk))⟩
      · rw [ht, hw]
        refine ⟨hgone, wait_setTerminal_ne hwait _ _ _ _ _ _ _ ?_⟩
        intro e; subst e
        exact hc op (List.mem_cons_self ..) hcn
    exact ih (n + 1) (t.step op) hgt' (by omega) hstep.1 hstep.2 (fun o ho => hc o (List.mem_cons_of_mem _ ho))

/-- **C76** is false for handlers that throw anything but a standard exception: the task never ends. Unless it is cancelled, whatever
happens later, a request for its result is never answered. -/
theorem C76_lost_task_counterexample (ops more : List (CliOp D H)) (hn : ops.length + more.length + 2 < 2 ^ 64) (env env' : CliEnv D H)
    (k : Nat) (id : Bytes) (j : Job D) (q : RpcId) (hc : ∀ op ∈ more, ¬ CancelsAt id op) :
    let s := (Cli.init : Cli D H).run ops
    let s' := (s.work env k).run more
    s.workers[k]? = some (id, j) → s.tasks.wait id = .blocked → jobEnds env s j = .other → s'.caps.tasks.isSome →
    (onRequest env' s' (askResult q id)).1 = .blocked := by
  intro s s' hw hb he hcap
  have hg : CliGood ops.length s := cliGood_reach ops (by omega)
  have hg1 : CliGood (ops.length + 1) (s.work env k) := cliGood_step hg (by omega) (.worker env k)
  have hwork : s.work env k = { s with workers := s.workers.eraseIdx k } := by
    unfold Cli.work; rw [hw]; simp only [he]
  have hgone : ∀ w ∈ (s.work env k).workers, w.1 ≠ id := by rw [hwork]; exact eraseIdx_gone hg.nodup hw
  have hwait : (s.work env k).tasks.wait id = .blocked := by rw [hwork]; exact hb
  have hend : s'.tasks.wait id = .blocked := cli_orphan id more (ops.length + 1) _ hg1 (by omega) hgone hwait hc
  obtain ⟨ct, hcap⟩ := Option.isSome_iff_exists.1 hcap
  rw [onRequest_result _ _ _ rfl]
  simp only
  unfold cliTaskResult
  rw [askResult_id, hcap]
  simp only [hend]

/-- No worker ends by an exception that is not standard. -/
def CivilCliOp : CliOp D H → Prop
  | .worker env _ => (∀ h r, env.elicit h r ≠ .other) ∧ ∀ h a, env.sample h a ≠ .other
  | _ => True

theorem civil_jobEnds {env : CliEnv D H} {k : Nat} (h : CivilCliOp (.worker env k)) (s : Cli D H) (j : Job D) : jobEnds env s j ≠ .other := by
  intro he
  cases j with
  | elicit r =>
    unfold jobEnds at he
    cases hh : s.elicit with
    | none => simp [hh] at he
    | some x =>
      cases hx : env.elicit x r with
      | other => exact h.1 x r hx
      | never => simp [hh, hx] at he
      | std e => simp [hh, hx] at he
      | ret v => simp [hh, hx] at he
  | sample a =>
    unfold jobEnds at he
    cases hh : s.sampler with
    | none => simp [hh] at he
    | some x => simp [hh] at he; exact h.2 x a he

theorem cli_run_append (s : Cli D H) (a b : List (CliOp D H)) : s.run (a ++ b) = (s.run a).run b := by simp [Cli.run, List.foldl_append]

/-- A terminal transition that leaves a task waiting was about another task. -/
theorem wait_before {n : Nat} {t : Cli D H} (hgt : CliGood n t) {id : Bytes} (i st : Bytes) (m : Option Bytes) (e : Bool) (p : JVal D) (rs : Bool) (now : Bytes)
    (hx : (t.tasks.setTerminal i st m e p rs now).2.2.wait id = .blocked) : t.tasks.wait id = .blocked ∧ i ≠ id := by
  rcases setTerminal_cases t.tasks i st m e p rs now with h1 | ⟨r0, hg0, hp0, _, h1⟩
  · rw [h1] at hx
    refine ⟨hx, ?_⟩
    intro ee; subst ee
    obtain ⟨r1, hy, hz⟩ := wait_blocked hx
    have hs1 := hgt.working i r1 hy hz
    unfold Store.setTerminal at h1
    simp only [hy, hz, hs1] at h1
    rw [if_neg not_ended] at h1
    simp only at h1
    have h3 : AMap.get t.tasks.records i = some ⟨{ r1.task with status := st, statusMessage := m, lastUpdatedAt := now }, r1.kind, r1.stopped || rs, e, some p⟩ := by
      rw [← h1]; simp only; exact AMap.get_put_self _ _ _
    rw [hy] at h3
    have h4 := congrArg (Option.map Record.payload) h3
    simp [hz] at h4
  · rw [h1] at hx
    by_cases ee : i = id
    · subst ee
      unfold Store.wait at hx
      simp only at hx
      rw [AMap.get_put_self] at hx
      simp only at hx
      cases hx
    · refine ⟨?_, ee⟩
      unfold Store.wait at hx ⊢
      simp only at hx
      rw [AMap.get_put_ne _ _ (Ne.symm ee)] at hx; exact hx

theorem cli_waiting_worked (r : List (CliOp D H)) : r.length + 1 < 2 ^ 64 → (∀ op ∈ r, CivilCliOp op) → ∀ id,
    ((Cli.init : Cli D H).run r.reverse).tasks.wait id = .blocked → ∃ w ∈ ((Cli.init : Cli D H).run r.reverse).workers, w.1 = id := by
  induction r with
  | nil => intro _ _ id h; cases h
  | cons op r ih =>
    intro hn hc id h
    simp only [List.length_cons] at hn
    rw [List.reverse_cons, cli_run_append] at h ⊢
    have ih' := ih (by omega) (fun o ho => hc o (List.mem_cons_of_mem _ ho))
    have hgt : CliGood r.length ((Cli.init : Cli D H).run r.reverse) := by
      have := cliGood_reach (D := D) (H := H) r.reverse (by rw [List.length_reverse]; omega)
      rwa [List.length_reverse] at this
    have hcop := hc op (List.mem_cons_self ..)
    generalize (Cli.init : Cli D H).run r.reverse = t at h ih' hgt ⊢
    change (t.step op).tasks.wait id = .blocked at h
    show ∃ w ∈ (t.step op).workers, w.1 = id
    rcases cliEffect_step t op with ⟨ht, hw⟩ | ⟨k, env, i, j, ho, _, he, ht, hw⟩ | ⟨k, ttl, now, j, hk, ht, hw⟩ | ⟨k, env, i, j, _, hk, st, m, e, p, now, ht, hw⟩ |
      ⟨i, st, m, e, p, now, hcn, ht, hw⟩
    · rw [ht] at h; rw [hw]; exact ih' id h
    · subst ho; exact absurd he (civil_jobEnds hcop t j)
    · rw [ht] at h; rw [hw]
      by_cases e : lit "task-" ++ natDec t.tasks.nextId = id
      · exact ⟨_, List.mem_append_right _ (List.mem_singleton.2 rfl), e⟩
      · rw [wait_create_ne _ _ _ e] at h
        obtain ⟨w, hwm, hwe⟩ := ih' id h
        exact ⟨w, List.mem_append_left _ hwm, hwe⟩
    · rw [ht] at h; rw [hw]
      obtain ⟨h1, h2⟩ := wait_before hgt _ _ _ _ _ _ _ h
      obtain ⟨w, hwm, hwe⟩ := ih' id h1
      refine ⟨w, ?_, hwe⟩
      obtain ⟨q, hq, hqe⟩ := List.mem_iff_getElem.1 hwm
      have hqk : q ≠ k := by
        intro e; subst e
        rw [List.getElem?_eq_getElem hq, hqe] at hk
        apply h2; rw [← hwe]; cases hk; rfl
      exact List.mem_eraseIdx_iff_getElem.2 ⟨q, hq, hqk, hqe⟩
    · rw [ht] at h; rw [hw]
      exact ih' id (wait_before hgt _ _ _ _ _ _ _ h).1

/-- **C76** (partial: handlers must not throw other exceptions). In every reachable state, every task of the client without an outcome has a
worker that is still at work on it; so it ends when that worker does, whatever handlers are registered then. -/
theorem C76_tasks_have_workers_partial (ops : List (CliOp D H)) (hn : ops.length + 1 < 2 ^ 64) (hc : ∀ op ∈ ops, CivilCliOp op) (id : Bytes) :
    let s := (Cli.init : Cli D H).run ops
    s.tasks.wait id = .blocked → ∃ (k : Nat) (j : Job D), s.workers[k]? = some (id, j) ∧
      ∀ env, TameCli env → ∃ e p, (s.work env k).tasks.wait id = .got e p := by
  intro s hb
  have hg : CliGood ops.length s := cliGood_reach ops hn
  have := cli_waiting_worked ops.reverse (by rw [List.length_reverse]; exact hn) (fun o ho => hc o (List.mem_reverse.1 ho)) id
  rw [List.reverse_reverse] at this
  obtain ⟨⟨i, j⟩, hw, hwe⟩ := this hb
  simp only at hwe
  subst hwe
  obtain ⟨k, hk, hke⟩ := List.mem_iff_getElem.1 hw
  have hk' : s.workers[k]? = some (i, j) := by rw [List.getElem?_eq_getElem hk, hke]
  refine ⟨k, j, hk', ?_⟩
  intro env ht
  obtain ⟨r0, hr0, hp0⟩ := wait_blocked hb
  have hs0 := hg.working i r0 hr0 hp0
  have eff : ∀ st m e p, ((s.tasks.complete i st m e p env.now).2.2.wait i) = .got e p := fun st m e p =>
    (C18_transition_effect s.tasks i r0 hr0 ⟨hp0, by rw [hs0]; decide⟩ st m e p env.now).1.2.2
  have hj : (∃ v, jobEnds env s j = .ret v) ∨ ∃ w, jobEnds env s j = .std w := by
    cases j with
    | elicit r =>
      unfold jobEnds
      cases hh : s.elicit with
      | none => exact .inr ⟨_, rfl⟩
      | some x =>
        rcases ht.elicit x r with ⟨a, ha⟩ | ⟨w, ha⟩
        · simp only [ha]; exact .inl ⟨_, rfl⟩
        · simp only [ha]; exact .inr ⟨_, rfl⟩
    | sample a =>
      unfold jobEnds
      cases hh : s.sampler with
      | none => exact .inr ⟨_, rfl⟩
      | some x =>
        rcases ht.sample x a with ⟨a, ha⟩ | ⟨w, ha⟩
        · exact .inl ⟨_, ha⟩
        · exact .inr ⟨_, ha⟩
  unfold Cli.work
  rw [hk']
  simp only
  rcases hj with ⟨v, hv⟩ | ⟨w, hv⟩
  · rw [hv]
    simp only
    split
    · exact ⟨_, _, eff _ _ _ _⟩
    · exact ⟨_, _, eff _ _ _ _⟩
  · rw [hv]
    exact ⟨_, _, eff _ _ _ _⟩

/-- A run in which a task is started and its worker is still at work. -/
def busyOps : List (CliOp Empty Nat) :=
  [.setElicit (some 0), .initialize { ClientCaps.none_ with tasks := some ⟨true, true, true, true⟩ },
   .request echoCli ⟨.int 1, lit "elicitation/create", some (withTask (elicitParams ⟨lit "m", .null, none, none, none, none, none⟩) (some 5))⟩]

example : ((Cli.init : Cli Empty Nat).run busyOps).workers[0]? = some (lit "task-1", .elicit ⟨lit "m", .null, none, none, none, none, none⟩) ∧
    (((Cli.init : Cli Empty Nat).run busyOps).tasks.wait (lit "task-1") matches .blocked) ∧
    ((Cli.init : Cli Empty Nat).run busyOps).elicit = some 0 ∧ ((Cli.init : Cli Empty Nat).run busyOps).caps.tasks.isSome ∧
    Tame (echoCli.elicit 0 ⟨lit "m", .null, none, none, none, none, none⟩) := by
  have : lit "task-" ++ natDec 1 = lit "task-1" := by decide
  refine ⟨?_, ?_, rfl, rfl, .inl ⟨_, rfl⟩⟩
  · show some (lit "task-" ++ natDec 1, _) = _
    rw [this]; rfl
  · decide +kernel
example : ∀ op ∈ busyOps, CivilCliOp op := by
  intro op h
  simp only [busyOps, List.mem_cons, List.not_mem_nil, or_false] at h
  rcases h with rfl | rfl | rfl <;> trivial

end Verif
