import Verif.Client.Requests
import Verif.Client.CallProps
import Verif.Server.StrictProps
import Verif.Server.CancelLemmas

/-!
Requests of the server to the client. C73: every request is answered under its own id. C74: what the server asks reaches the handler of
the client, and its answer comes back. C71 for the server's calls. C75: a strict client neither sends results nor hands over parameters of
the wrong shape. C77: progress and task status arrive.
-/

set_option linter.unusedSectionVars false

namespace Verif

open Server Tasks Resource Validation Client
open Caps hiding Obj

variable {D H : Type}

/-! ### Specification -/

/-- `o` is how the future of the server's request `method` ends when this client handles it under id `i`. -/
def ClientYields (env : CliEnv D H) (s : Cli D H) (i : RpcId) (method : String) (params : Option (JVal D)) (o : Outcome D) : Prop :=
  ∃ r, o = .resp r ∧ (onRequest env s ⟨i, lit method, params⟩).1 = .answer r

/-- All user code of the client ends by returning or by throwing a standard exception. -/
structure TameCli (env : CliEnv D H) : Prop where
  roots : ∀ h, Tame (env.roots h)
  elicit : ∀ h r, Tame (env.elicit h r)
  sample : ∀ h a, Tame (env.sample h a)

/-- The methods a client documents. -/
def clientMethods : List Bytes :=
  ["ping", "roots/list", "tasks/get", "tasks/list", "tasks/result", "tasks/cancel", "elicitation/create", "sampling/createMessage"].map lit

/-! ### The branches of `onRequest` -/

theorem onRequest_roots (env : CliEnv D H) (s : Cli D H) (req : Request D) (h : req.method = lit "roots/list") :
    onRequest env s req = (cliRoots env s req.id, s) := by
  unfold onRequest
  rw [h]
  rw [if_neg (by decide), if_pos rfl]

theorem onRequest_result (env : CliEnv D H) (s : Cli D H) (req : Request D) (h : req.method = lit "tasks/result") :
    onRequest env s req = (cliTaskResult s req, s) := by
  unfold onRequest
  rw [h]
  rw [if_neg (by decide), if_neg (by decide), if_neg (by decide), if_neg (by decide), if_pos rfl]

theorem onRequest_elicit (env : CliEnv D H) (s : Cli D H) (req : Request D) (h : req.method = lit "elicitation/create") :
    onRequest env s req = cliElicit env s req := by
  unfold onRequest
  rw [h]
  rw [if_neg (by decide), if_neg (by decide), if_neg (by decide), if_neg (by decide), if_neg (by decide), if_neg (by decide), if_pos rfl]

theorem onRequest_sample (env : CliEnv D H) (s : Cli D H) (req : Request D) (h : req.method = lit "sampling/createMessage") :
    onRequest env s req = cliSample env s req := by
  unfold onRequest
  rw [h]
  rw [if_neg (by decide), if_neg (by decide), if_neg (by decide), if_neg (by decide), if_neg (by decide), if_neg (by decide), if_neg (by decide),
    if_pos rfl]

/-- A property of what is sent holds if it holds in every branch. -/
theorem onRequest_all {P : Out D → Prop} (env : CliEnv D H) (s : Cli D H) (req : Request D)
    (ping : req.method = lit "ping" → P (okay req.id (.obj [])))
    (roots : req.method = lit "roots/list" → P (cliRoots env s req.id)) (get : req.method = lit "tasks/get" → P (cliGetTask s req))
    (list : req.method = lit "tasks/list" → P (cliListTasks s req)) (result : req.method = lit "tasks/result" → P (cliTaskResult s req))
    (cancel : req.method = lit "tasks/cancel" →
      P (checkedReply s.strict validateTask (lit "Invalid task result shape") req.id (handleCancel s.tasks (cliAllows s (·.cancel)) req.params env.now).1))
    (elicit : req.method = lit "elicitation/create" → P (cliElicit env s req).1)
    (sample : req.method = lit "sampling/createMessage" → P (cliSample env s req).1)
    (other : req.method ∉ clientMethods → P (failed req.id Code.methodNotFound (lit "Method not found"))) :
    P (onRequest env s req).1 := by
  unfold onRequest
  refine iteP (P := fun o : Out D × Cli D H => P o.1) (fun hm => ping hm) (fun h1 => ?_)
  refine iteP (P := fun o : Out D × Cli D H => P o.1) (fun hm => roots hm) (fun h2 => ?_)
  refine iteP (P := fun o : Out D × Cli D H => P o.1) (fun hm => get hm) (fun h3 => ?_)
  refine iteP (P := fun o : Out D × Cli D H => P o.1) (fun hm => list hm) (fun h4 => ?_)
  refine iteP (P := fun o : Out D × Cli D H => P o.1) (fun hm => result hm) (fun h5 => ?_)
  refine iteP (P := fun o : Out D × Cli D H => P o.1) (fun hm => cancel hm) (fun h6 => ?_)
  refine iteP (P := fun o : Out D × Cli D H => P o.1) (fun hm => elicit hm) (fun h7 => ?_)
  refine iteP (P := fun o : Out D × Cli D H => P o.1) (fun hm => sample hm) (fun h8 => ?_)
  apply other
  simp [clientMethods, h1, h2, h3, h4, h5, h6, h7, h8]

/-! ### C73 -/

theorem own_cliResult (s : Cli D H) (req : Request D) : Own req.id (cliTaskResult s req) := by
  unfold cliTaskResult
  split
  · exact own_failed _ _ _
  · split
    · exact own_failed _ _ _
    · split
      · exact own_failed _ _ _
      · exact own_blocked _
      · intro r h; cases h; exact ⟨rfl, .inr ⟨_, rfl, rfl⟩⟩
      · split
        · exact own_checked _ _ _ _ _
        · exact own_okay _ _

theorem own_cliElicit (env : CliEnv D H) (s : Cli D H) (req : Request D) : Own req.id (cliElicit env s req).1 := by
  unfold cliElicit
  split
  · exact own_failed _ _ _
  · simp only
    split
    · exact own_failed _ _ _
    · split
      · split
        · exact own_checked _ _ _ _ _
        · exact own_failed _ _ _
      · unfold elicitSync
        simp only
        split
        · exact own_blocked _
        · exact own_escaped _
        · exact own_failed _ _ _
        · exact own_checked _ _ _ _ _

theorem own_sampleSync (env : CliEnv D H) (s : Cli D H) (req : Request D) : Own req.id (sampleSync env s req) := by
  unfold sampleSync
  split
  · exact own_failed _ _ _
  · split
    · exact own_failed _ _ _
    · split
      · exact own_blocked _
      · exact own_escaped _
      · exact own_failed _ _ _
      · split
        · exact own_failed _ _ _
        · exact own_checked _ _ _ _ _

theorem own_cliSample (env : CliEnv D H) (s : Cli D H) (req : Request D) : Own req.id (cliSample env s req).1 := by
  unfold cliSample
  split
  · split
    · split
      · exact own_failed _ _ _
      · split
        · exact own_failed _ _ _
        · exact own_checked _ _ _ _ _
    · exact own_failed _ _ _
  · exact own_sampleSync _ _ _

/-- **C73.** Whatever the request, the handlers and the state of the client: an answer carries the id of the request, and either a result
or an error. -/
theorem C73_own_id (env : CliEnv D H) (s s' : Cli D H) (req : Request D) (r : Response D) (h : onRequest env s req = (.answer r, s')) :
    Answers req.id r := by
  have key : Own req.id (onRequest env s req).1 := by
    refine onRequest_all env s req (fun _ => own_okay _ _) (fun _ => ?_) (fun _ => ?_) (fun _ => ?_) (fun _ => own_cliResult _ _)
      (fun _ => own_checkedReply _ _ _ _ _) (fun _ => own_cliElicit _ _ _) (fun _ => own_cliSample _ _ _) (fun _ => own_failed _ _ _)
    · unfold cliRoots
      split
      · exact own_failed _ _ _
      · split
        · exact own_blocked _
        · exact own_escaped _
        · exact own_failed _ _ _
        · exact own_checked _ _ _ _ _
    · unfold cliGetTask
      split
      · exact own_failed _ _ _
      · exact own_checkedReply _ _ _ _ _
    · unfold cliListTasks
      split
      · exact own_checkedReply _ _ _ _ _
      · exact own_failed _ _ _
  exact key r (by rw [h])

theorem done_startTask (s : Cli D H) (now : Bytes) (id : RpcId) (k : Kind) (ttl : Option Int) (j : Job D) : Done (startTask s now id k ttl j).1 :=
  done_checked _ _ _ _ _

/-- **C73**, in part: every request is answered if the handlers return or throw standard exceptions, and a request for the result of a task
if the task has ended. Missing: other exceptions, see `C73_escape_counterexample`. -/
theorem C73_answered_partial (env : CliEnv D H) (ht : TameCli env) (s : Cli D H) (req : Request D)
    (hw : req.method = lit "tasks/result" → ∀ id, taskIdParam req.params = some id → s.tasks.wait id ≠ .blocked) : Done (onRequest env s req).1 := by
  refine onRequest_all env s req (fun _ => done_okay _ _) (fun _ => ?_) (fun _ => ?_) (fun _ => ?_) (fun hm => ?_)
      (fun _ => done_checkedReply _ _ _ _ _) (fun _ => ?_) (fun _ => ?_) (fun _ => done_failed _ _ _)
  · unfold cliRoots
    split
    · exact done_failed _ _ _
    · rename_i h _
      have := tame_ne_never (ht.roots h)
      split
      · rename_i e; exact absurd e this.1
      · rename_i e; exact absurd e this.2
      · exact done_failed _ _ _
      · exact done_checked _ _ _ _ _
  · unfold cliGetTask
    split
    · exact done_failed _ _ _
    · exact done_checkedReply _ _ _ _ _
  · unfold cliListTasks
    split
    · exact done_checkedReply _ _ _ _ _
    · exact done_failed _ _ _
  · unfold cliTaskResult
    split
    · exact done_failed _ _ _
    · split
      · exact done_failed _ _ _
      · rename_i id hid
        split
        · exact done_failed _ _ _
        · rename_i hb; exact absurd hb (hw hm id hid)
        · exact ⟨_, rfl⟩
        · split
          · exact done_checked _ _ _ _ _
          · exact done_okay _ _
  · unfold cliElicit
    split
    · exact done_failed _ _ _
    · rename_i h _
      simp only
      split
      · exact done_failed _ _ _
      · split
        · split
          · exact done_startTask _ _ _ _ _ _
          · exact done_failed _ _ _
        · have := tame_ne_never (ht.elicit h (elicitOf (req.params.getD (.obj []))))
          unfold elicitSync
          simp only
          split
          · rename_i e; exact absurd e this.1
          · rename_i e; exact absurd e this.2
          · exact done_failed _ _ _
          · exact done_checked _ _ _ _ _
  · unfold cliSample
    split
    · split
      · split
        · exact done_failed _ _ _
        · split
          · exact done_failed _ _ _
          · exact done_startTask _ _ _ _ _ _
      · exact done_failed _ _ _
    · unfold sampleSync
      split
      · exact done_failed _ _ _
      · rename_i h _
        have := tame_ne_never (ht.sample h (sampleArgs req.params))
        split
        · exact done_failed _ _ _
        · split
          · rename_i e; exact absurd e this.1
          · rename_i e; exact absurd e this.2
          · exact done_failed _ _ _
          · split
            · exact done_failed _ _ _
            · exact done_checked _ _ _ _ _

/-- **C73.** A method the client does not know is answered with "method not found" and changes nothing. -/
theorem C73_unknown_method (env : CliEnv D H) (s : Cli D H) (req : Request D) (h : req.method ∉ clientMethods) :
    onRequest env s req = (.answer ⟨req.id, none, some (mkErrorObj (-32601) (lit "Method not found") none)⟩, s) := by
  simp [clientMethods] at h
  obtain ⟨h1, h2, h3, h4, h5, h6, h7, h8⟩ := h
  unfold onRequest
  rw [if_neg h1, if_neg h2, if_neg h3, if_neg h4, if_neg h5, if_neg h6, if_neg h7, if_neg h8]
  rfl

/-- The client announced the part `f` of the tasks capability. -/
def Announced (s : Cli D H) (f : ClientTasks → Bool) : Prop := ∃ t, s.caps.tasks = some t ∧ f t = true

theorem cliAllows_iff (s : Cli D H) (f : ClientTasks → Bool) : cliAllows s f = true ↔ Announced s f := by
  unfold cliAllows Announced
  cases s.caps.tasks <;> simp

/-- **C73.** Task methods the client has not announced are refused with MethodNotAllowed and change nothing: listing and cancelling need
their own announcement, the others any tasks capability. -/
theorem C73_tasks_not_announced (env : CliEnv D H) (s : Cli D H) (req : Request D) :
    (req.method = lit "tasks/list" → ¬ Announced s (·.list) → ∃ m, onRequest env s req = (.answer ⟨req.id, none, some (mkErrorObj (-32001) m none)⟩, s)) ∧
    (req.method = lit "tasks/cancel" → ¬ Announced s (·.cancel) → ∃ m, onRequest env s req = (.answer ⟨req.id, none, some (mkErrorObj (-32001) m none)⟩, s)) ∧
    (req.method = lit "tasks/get" ∨ req.method = lit "tasks/result" → s.caps.tasks = none →
      ∃ m, onRequest env s req = (.answer ⟨req.id, none, some (mkErrorObj (-32001) m none)⟩, s)) := by
  refine ⟨fun hm hn => ?_, fun hm hn => ?_, ?_⟩
  · rw [← cliAllows_iff, Bool.not_eq_true] at hn
    unfold onRequest
    rw [hm]
    rw [if_neg (by decide), if_neg (by decide), if_neg (by decide), if_pos rfl]
    simp only [cliListTasks, hn, Bool.false_eq_true, if_false]
    exact ⟨_, rfl⟩
  · rw [← cliAllows_iff, Bool.not_eq_true] at hn
    unfold onRequest
    rw [hm]
    rw [if_neg (by decide), if_neg (by decide), if_neg (by decide), if_neg (by decide), if_neg (by decide), if_pos rfl]
    simp only [handleCancel, hn, Bool.false_eq_true, if_false]
    exact ⟨_, rfl⟩
  · rintro (hm | hm) hn
    · unfold onRequest
      rw [hm]
      rw [if_neg (by decide), if_neg (by decide), if_pos rfl]
      simp only [cliGetTask, hn]
      exact ⟨_, rfl⟩
    · rw [onRequest_result _ _ _ hm]
      simp only [cliTaskResult, hn]
      exact ⟨_, rfl⟩

/-- **C73.** Announced, the list of tasks is never refused that way: whatever the parameters, the answer is a result or another error. -/
theorem C73_tasks_announced (env : CliEnv D H) (s : Cli D H) (req : Request D) (r : Response D) (hm : req.method = lit "tasks/list")
    (ha : Announced s (·.list)) (h : (onRequest env s req).1 = .answer r) : ∀ m, r.error ≠ some (mkErrorObj (-32001) m none) := by
  rw [← cliAllows_iff] at ha
  unfold onRequest at h
  rw [hm] at h
  rw [if_neg (by decide), if_neg (by decide), if_neg (by decide), if_pos rfl] at h
  simp only [cliListTasks, ha, if_true] at h
  intro m hr
  cases hx : handleList s.tasks req.params with
  | ok v =>
    rw [hx] at h
    simp only [checkedReply, checked] at h
    split at h
    · cases h; simp [mkErrorObj, Code.internalError] at hr
    · cases h; cases hr
  | fail c x =>
    rw [hx] at h
    cases h
    unfold handleList at hx
    simp only [Option.some.injEq] at hr
    simp only [mkErrorObj, List.append_nil, JVal.obj.injEq, List.cons.injEq, Prod.mk.injEq, true_and, JVal.int.injEq] at hr
    have hc : c = Code.invalidParams := by
      repeat' split at hx
      all_goals first | (cases hx; rfl) | cases hx
    rw [hc] at hr
    exact absurd hr.1 (by decide)

example : ¬ Announced (Cli.init : Cli Empty Nat) (·.list) := by rintro ⟨t, h, _⟩; cases h

/-- **C73** is false for handlers that throw anything but a standard exception: it leaves `onRequest` and no answer is made. -/
theorem C73_escape_counterexample (env : CliEnv D H) (s : Cli D H) (h : H) (hr : s.roots = some h) (he : env.roots h = .other) (i : RpcId) (p : Option (JVal D)) :
    (onRequest env s ⟨i, lit "roots/list", p⟩).1 = .escaped := by
  rw [onRequest_roots _ _ _ rfl]
  simp only [cliRoots, hr, he]

/-! ### C74 -/

theorem root_roundtrip (r : Root D) : parseRoot (rootJson r) = if r.uri = [] then none else some r := by
  obtain ⟨u, n, m⟩ := r
  cases n <;> cases m <;> rfl

theorem roots_roundtrip (l : List (Root D)) : (l.map rootJson).filterMap parseRoot = l.filter (fun r => decide (r.uri ≠ [])) := by
  induction l with
  | nil => rfl
  | cons r l ih =>
    rw [List.map_cons, List.filterMap_cons, root_roundtrip, List.filter_cons, ih]
    by_cases hu : r.uri = []
    · simp [hu]
    · simp [hu]

theorem roots_valid (l : List (Root D)) : validateRootsList (rootsJson l) = true := by
  have h : (l.map rootJson).all isRootEntry = true := by
    rw [List.all_eq_true]
    intro x hx
    obtain ⟨⟨u, n, m⟩, _, rfl⟩ := List.mem_map.1 hx
    cases n <;> cases m <;> rfl
  exact h

/-- **C74.** `RequestRootsList` returns exactly the roots that the handler of the client returned, in their order, but for those without a
URI; also when either side is strict. -/
theorem C74_roots (env : CliEnv D H) (s : Cli D H) (i : RpcId) (strict : Bool) (h : H) (hs : s.roots = some h) (l : List (Root D)) (hr : env.roots h = .ret l)
    (p : Option (JVal D)) :
    ∃ o, ClientYields env s i "roots/list" p o ∧ rootsOf strict o = some (l.filter (fun r => decide (r.uri ≠ []))) := by
  refine ⟨.resp ⟨i, some (rootsJson l), none⟩, ⟨_, rfl, ?_⟩, ?_⟩
  · rw [onRequest_roots _ _ _ rfl]
    simp only [cliRoots, hs, hr]
    rw [checked_ok (fun _ => roots_valid l)]; rfl
  · simp only [rootsOf, roots_valid, Bool.not_true, Bool.and_false, Bool.false_eq_true, if_false, Option.some.injEq]
    show (l.map rootJson).filterMap parseRoot = _
    exact roots_roundtrip l

theorem elicitOf_params (r : ElicitReq D) : elicitOf (.obj (elicitParams r)) = r := by
  obtain ⟨a, b, c, d, e, f, g⟩ := r
  cases c <;> cases d <;> cases e <;> cases f <;> cases g <;> rfl

theorem elicitParams_valid (r : ElicitReq D) : validateElicitationRequest (.obj (elicitParams r)) = true := by
  obtain ⟨a, b, c, d, e, f, g⟩ := r
  cases c <;> cases d <;> cases e <;> cases f <;> cases g <;> rfl

theorem elicitParams_noTask (r : ElicitReq D) : taskMeta (some (.obj (elicitParams r))) = none := by
  obtain ⟨a, b, c, d, e, f, g⟩ := r
  cases c <;> cases d <;> cases e <;> cases f <;> cases g <;> rfl

theorem elicitRes_roundtrip (x : ElicitRes D) (strict : Bool) (i : RpcId) (h : strict = true → validateElicitationResult (elicitResJson x) = true) :
    elicitResOf strict (.resp ⟨i, some (elicitResJson x), none⟩) = some x := by
  have hc : (strict && !validateElicitationResult (elicitResJson x)) = false := by
    cases hs : strict with
    | false => rfl
    | true => rw [h hs]; rfl
  simp only [elicitResOf, hc, Bool.false_eq_true, if_false]
  obtain ⟨a, b, c⟩ := x
  cases b <;> cases c <;> rfl

/-- What the protocol allows as an action. -/
def LegalAction (a : Bytes) : Prop := a = lit "accept" ∨ a = lit "decline" ∨ a = lit "cancel"

theorem elicitRes_valid (x : ElicitRes D) (h : LegalAction x.action) : validateElicitationResult (elicitResJson x) = true := by
  obtain ⟨a, b, c⟩ := x
  simp only at h
  rcases h with rfl | rfl | rfl <;> cases b <;> cases c <;> rfl

/-- **C74.** `RequestElicitation`: the handler of the client is called with exactly the request, and what it returns is returned to the
server; in strict mode for the actions of the protocol. -/
theorem C74_elicitation (env : CliEnv D H) (s : Cli D H) (i : RpcId) (strict : Bool) (h : H) (hs : s.elicit = some h) (r : ElicitReq D) (x : ElicitRes D)
    (hr : env.elicit h r = .ret x) (hx : s.strict = true ∨ strict = true → LegalAction x.action) :
    ∃ o, ClientYields env s i "elicitation/create" (some (.obj (elicitParams r))) o ∧ elicitResOf strict o = some x := by
  refine ⟨.resp ⟨i, some (elicitResJson x), none⟩, ⟨_, rfl, ?_⟩, elicitRes_roundtrip x strict i (fun h => elicitRes_valid x (hx (.inr h)))⟩
  rw [onRequest_elicit _ _ _ rfl]
  simp only [cliElicit, hs, Option.getD_some, elicitParams_valid, Bool.not_true, Bool.and_false, Bool.false_eq_true, if_false, elicitParams_noTask,
    elicitSync, elicitOf_params, hr]
  rw [checked_ok (fun h => elicitRes_valid x (hx (.inl h)))]; rfl

/-- The options of a sampling request that have a parameter in the sampling handler; an option that is not set arrives as null. -/
def sampleView (p : SampleReq D) : SampleArgs D :=
  ⟨.arr p.messages, p.modelPreferences.getD .null, match p.systemPrompt with | some t => .str t | none => .null,
    match p.includeContext with | some t => .str t | none => .null⟩

theorem sampleArgs_params (p : SampleReq D) (tail : Validation.Obj D) (h1 : AMap.get tail (lit "modelPreferences") = none) (h2 : AMap.get tail (lit "systemPrompt") = none)
    (h3 : AMap.get tail (lit "includeContext") = none) : sampleArgs (some (.obj (sampleParams p ++ tail))) = sampleView p := by
  obtain ⟨ms, mp, sp, ic, mt, t, ss, md⟩ := p
  have hg : ∀ k, AMap.get (sampleParams ⟨ms, mp, sp, ic, mt, t, ss, md⟩ ++ tail) k =
      (AMap.get (sampleParams ⟨ms, mp, sp, ic, mt, t, ss, md⟩) k).or (AMap.get tail k) := fun k => AMap.get_append _ _ _
  simp only [sampleArgs, sampleView, Option.getD_some, JVal.get?, hg, h1, h2, h3, Option.or_none, SampleArgs.mk.injEq]
  simp (disch := decide) only [sampleParams, AMap.get_append, get_optField_self, get_optField_ne, Option.none_or, Option.or_none]
  refine ⟨rfl, rfl, ?_, ?_⟩
  · cases sp <;> rfl
  · cases ic <;> rfl

theorem sampleParams_noTask (p : SampleReq D) : taskMeta (some (.obj (sampleParams p))) = none := by
  have h : AMap.get (sampleParams p) (lit "task") = none := by
    simp (disch := decide) only [sampleParams, AMap.get_append, get_optField_ne, Option.none_or, Option.or_none]
    rfl
  cases hm : taskMeta (some (.obj (sampleParams p))) with
  | none => rfl
  | some t =>
    obtain ⟨m, x, h1, h2⟩ := (taskMeta_iff ⟨.null, [], some (.obj (sampleParams p))⟩).1 (by simp [hm])
    cases h1
    rw [h] at h2; cases h2

theorem sampleParams_valid (p : SampleReq D) (tail : Validation.Obj D) (h : ∀ m ∈ p.messages, isSamplingMessage m = true) :
    validateCreateMessageParams (.obj (sampleParams p ++ tail)) = true := by
  show isArrOf isSamplingMessage (.arr p.messages) = true
  simpa [isArrOf] using h

theorem sampler_of {s : Cli D H} {h : H} (hs : s.sampling = some h ∨ s.sampling = none ∧ s.samplingCancelable = some h) : s.sampler = some h := by
  rcases hs with hs | ⟨hs, hs'⟩ <;> simp [Cli.sampler, *]

/-- **C74.** `RequestCreateMessage`: the handler of the client is called with exactly the messages, model preferences, system prompt and
context inclusion asked for, and what it returns is returned to the server; when the client is strict, for messages and results of the
documented shape. The handler set by `SetSamplingHandler` is used if there is one, the cancelable one otherwise. -/
theorem C74_sampling (env : CliEnv D H) (hc : env.cancelled = false) (s : Cli D H) (i : RpcId) (h : H)
    (hs : s.sampling = some h ∨ s.sampling = none ∧ s.samplingCancelable = some h) (p : SampleReq D) (v : JVal D)
    (hr : env.sample h (sampleView p) = .ret v)
    (hm : s.strict = true → (∀ m ∈ p.messages, isSamplingMessage m = true) ∧ Shape.CreateMessageResult v) :
    ∃ o, ClientYields env s i "sampling/createMessage" (some (.obj (sampleParams p))) o ∧ sampleOf o = v := by
  refine ⟨.resp ⟨i, some v, none⟩, ⟨_, rfl, ?_⟩, rfl⟩
  have hs := sampler_of hs
  have ha : sampleArgs (some (.obj (sampleParams p))) = sampleView p := by
    have := sampleArgs_params p [] rfl rfl rfl
    rwa [List.append_nil] at this
  have hv : (s.strict && !validateCreateMessageParams ((some (JVal.obj (sampleParams p))).getD (.obj []))) = false := by
    cases hst : s.strict with
    | false => rfl
    | true =>
      have := sampleParams_valid p [] (hm hst).1
      rw [List.append_nil] at this
      simp [this]
  rw [onRequest_sample _ _ _ rfl]
  simp only [cliSample, sampleParams_noTask, sampleSync, hs, hv, Bool.false_eq_true, if_false, ha, hr, hc]
  rw [checked_ok (fun h => (C41_others v).2.2.2.2 (hm h).2)]; rfl

/-- **C74.** A sampling request whose cancellation arrived while its handler ran is answered with an error, not with the result. -/
theorem C74_sampling_cancelled (env : CliEnv D H) (hc : env.cancelled = true) (s : Cli D H) (req : Request D) (hm : req.method = lit "sampling/createMessage")
    (ht : ¬ AsksTask req) (ha : ∀ h a, ∃ v, env.sample h a = .ret v) : ∃ e, onRequest env s req = (.answer ⟨req.id, none, some e⟩, s) := by
  rw [← taskMeta_iff, Bool.not_eq_true, Option.isSome_eq_false_iff, Option.isNone_iff_eq_none] at ht
  rw [onRequest_sample _ _ _ hm]
  simp only [cliSample, ht, sampleSync]
  split
  · exact ⟨_, rfl⟩
  · rename_i h _
    split
    · exact ⟨_, rfl⟩
    · obtain ⟨v, hv⟩ := ha h (sampleArgs req.params)
      simp only [hv, hc, if_true]
      exact ⟨_, rfl⟩

/-- **C74.** The request the server sends carries every option that is set under its documented name, and nothing for one that is not. -/
theorem C74_sampling_sent (p : SampleReq D) :
    AMap.get (sampleParams p) (lit "messages") = some (.arr p.messages) ∧ AMap.get (sampleParams p) (lit "modelPreferences") = p.modelPreferences ∧
    AMap.get (sampleParams p) (lit "systemPrompt") = p.systemPrompt.map .str ∧ AMap.get (sampleParams p) (lit "includeContext") = p.includeContext.map .str ∧
    AMap.get (sampleParams p) (lit "maxTokens") = p.maxTokens.map .int ∧ AMap.get (sampleParams p) (lit "temperature") = p.temperature.map .dbl ∧
    AMap.get (sampleParams p) (lit "stopSequences") = p.stopSequences.map (fun l => .arr (l.map .str)) ∧ AMap.get (sampleParams p) (lit "metadata") = p.metadata := by
  have hm : ∀ k, AMap.get [(lit "messages", (JVal.arr p.messages : JVal D))] k = if lit "messages" = k then some (.arr p.messages) else none :=
    fun k => by rw [AMap.get_cons, AMap.get_nil]
  simp (discharger := decide) only [sampleParams, AMap.get_append, get_optField_ne, get_optField_self, hm, Option.or_none, Option.none_or, if_true, if_false,
    Option.some_or, and_self]
  refine ⟨trivial, ?_, ?_, ?_, ?_, ?_, ?_, ?_⟩ <;> rw [if_neg (by decide), Option.none_or]

/-- **C74** is false for the other options of a sampling request: whatever maximum number of tokens, temperature, stop sequences and metadata
the server asks for, the client behaves in the same way, whatever its handler and state are. -/
theorem C74_sampling_options_counterexample (env : CliEnv D H) (s : Cli D H) (i : RpcId) (p : SampleReq D) (mt : Option Int) (t : Option D)
    (ss : Option (List Bytes)) (md : Option (JVal D)) :
    onRequest env s ⟨i, lit "sampling/createMessage", some (.obj (sampleParams p))⟩ =
      onRequest env s ⟨i, lit "sampling/createMessage", some (.obj (sampleParams { p with maxTokens := mt, temperature := t, stopSequences := ss, metadata := md }))⟩ := by
  rw [onRequest_sample _ _ _ rfl, onRequest_sample _ _ _ rfl]
  simp only [cliSample, sampleParams_noTask, sampleSync]
  have ha : ∀ q : SampleReq D, sampleArgs (some (.obj (sampleParams q))) = sampleView q := by
    intro q
    have := sampleArgs_params q [] rfl rfl rfl
    rwa [List.append_nil] at this
  rw [ha, ha]
  have hv : ∀ q : SampleReq D, validateCreateMessageParams ((some (JVal.obj (sampleParams q))).getD (.obj [])) = q.messages.all isSamplingMessage := fun q => rfl
  rw [hv, hv]
  rfl


/-- A client whose handlers echo: one root, an elicitation accepted with the message, sampling that returns the messages. -/
def echoCli : CliEnv Empty Nat :=
  ⟨fun _ => .ret [⟨lit "file:///a", some (lit "a"), none⟩, ⟨[], none, none⟩], fun _ r => .ret ⟨lit "accept", some (.str r.message), none⟩, fun _ a => .ret a.messages,
   false, lit "t"⟩
def readyCli : Cli Empty Nat := (Cli.init).run [.setRoots (some 0), .setElicit (some 0), .setSampling (some 0), .initialize
  { ClientCaps.none_ with tasks := some ⟨true, true, true, true⟩ }]

example : TameCli echoCli := ⟨fun _ => .inl ⟨_, rfl⟩, fun _ _ => .inl ⟨_, rfl⟩, fun _ _ => .inl ⟨_, rfl⟩⟩
example : readyCli.roots = some 0 ∧ readyCli.elicit = some 0 ∧ readyCli.sampling = some 0 ∧ echoCli.cancelled = false ∧
    (echoCli.roots 0 = .ret [⟨lit "file:///a", some (lit "a"), none⟩, ⟨[], none, none⟩]) ∧
    echoCli.elicit 0 ⟨lit "m", .null, none, none, none, none, none⟩ = .ret ⟨lit "accept", some (.str (lit "m")), none⟩ ∧ LegalAction (lit "accept") ∧
    echoCli.sample 0 (sampleView ⟨[.null], none, none, none, none, none, none, none⟩) = .ret (.arr [.null]) :=
  ⟨rfl, rfl, rfl, rfl, rfl, rfl, .inl rfl, rfl⟩
example : ({ echoCli with roots := fun _ => .other } : CliEnv Empty Nat).roots 0 = .other := rfl
example : lit "nope" ∉ clientMethods := by decide

/-! ### C71 for the calls of the server -/

/-- **C71.** The task requests of the server succeed only on an answer with a result and no error; on an error answer the exception carries
the message of the client. -/
theorem C71_server_tasks (strict : Bool) (threw : Bytes) (o : Outcome D) :
    (∀ x, sampleTask strict threw o = .ok x → ∃ v, SucceededWith o v) ∧ (∀ x, elicitTask strict threw o = .ok x → ∃ v, SucceededWith o v) ∧
    ∀ r e m, o = .resp r → r.error = some e → e.get? (lit "message") = some (.str m) →
      sampleTask strict threw o = .error m ∧ elicitTask strict threw o = .error m := by
  have key : ∀ (f b : Bytes) (x : Task × Option (JVal D)),
      strictCall strict validateCreateTaskResult parseCreate f b threw o = .ok x → ∃ v, SucceededWith o v := by
    intro f b x h
    cases o with
    | threw => cases h
    | nul => cases h
    | resp r =>
      obtain ⟨i, re, er⟩ := r
      cases er with
      | some e => cases re <;> cases h
      | none =>
        cases re with
        | none => cases h
        | some v => exact ⟨v, _, rfl, rfl, rfl⟩
  refine ⟨fun x h => key _ _ _ h, fun x h => key _ _ _ h, ?_⟩
  rintro ⟨i, re, er⟩ e m rfl he hm
  simp only at he
  subst he
  constructor <;> (cases re <;> simp [sampleTask, elicitTask, strictCall, errorMessage, JVal.strAt, JVal.asStr, hm])

/-- **C71** is false for `RequestRootsList`, `RequestElicitation` and `RequestCreateMessage`: an error answer gives an empty list of roots, an
elicitation result with an empty action, and the error object as if it were the message. -/
theorem C71_server_requests_counterexample (strict : Bool) (i : RpcId) (e : JVal D) :
    rootsOf strict (.resp ⟨i, none, some e⟩) = some [] ∧ rootsOf strict (.resp ⟨i, some (rootsJson ([] : List (Root D))), none⟩) = some [] ∧
    elicitResOf strict (.resp ⟨i, none, some e⟩) = some ⟨[], none, none⟩ ∧
    sampleOf (.resp ⟨i, none, some e⟩) = e ∧ sampleOf (.resp ⟨i, some e, none⟩) = e := by
  refine ⟨rfl, ?_, rfl, rfl, rfl⟩
  cases strict <;> rfl

/-- **C71**, in part: roots and elicitation actions that are returned come from a success. Missing: an empty list, or an empty action, may
also mean that the client failed. -/
theorem C71_server_requests_partial (strict : Bool) (o : Outcome D) :
    (∀ l, rootsOf strict o = some l → l ≠ [] → ∃ v, SucceededWith o v) ∧
    (∀ x, elicitResOf strict o = some x → x.action ≠ [] → ∃ v, SucceededWith o v) := by
  cases o with
  | threw => exact ⟨(fun _ h => by cases h), (fun _ h => by cases h)⟩
  | nul =>
    refine ⟨fun l h hl => ?_, fun x h hl => ?_⟩
    · cases h; exact absurd rfl hl
    · cases h; exact absurd rfl hl
  | resp r =>
    obtain ⟨i, re, er⟩ := r
    cases er with
    | some e =>
      refine ⟨fun l h hl => ?_, fun x h hl => ?_⟩
      · cases re <;> (cases h; exact absurd rfl hl)
      · cases re <;> (cases h; exact absurd rfl hl)
    | none =>
      cases re with
      | none =>
        refine ⟨fun l h hl => ?_, fun x h hl => ?_⟩
        · cases h; exact absurd rfl hl
        · cases h; exact absurd rfl hl
      | some v => exact ⟨fun _ _ _ => ⟨v, _, rfl, rfl, rfl⟩, fun _ _ _ => ⟨v, _, rfl, rfl, rfl⟩⟩

/-! ### C75 -/

/-- The documented shape of the results of each method; tasks deliver what their kind says. -/
def clientShapes : List (String × Shape.Shape D) :=
  [("roots/list", Shape.RootsList), ("tasks/get", Shape.Task), ("tasks/cancel", Shape.Task), ("tasks/list", Shape.TasksListResult),
   ("tasks/result", fun v => Shape.CreateMessageResult v ∨ Shape.ElicitationResult v)]

theorem cliResult_shaped (s : Cli D H) (hs : s.strict = true) (req : Request D) :
    Shaped (fun v => Shape.CreateMessageResult v ∨ Shape.ElicitationResult v) (cliTaskResult s req) := by
  unfold cliTaskResult
  split
  · exact shaped_failed _ _ _ _
  · split
    · exact shaped_failed _ _ _ _
    · split
      · exact shaped_failed _ _ _ _
      · intro r v h; cases h
      · intro r v h hv; cases h; cases hv
      · rename_i hw
        split
        · rename_i rec _
          rw [hs]
          refine shaped_checked (fun v hv => ?_) _ _ _
          cases hk : rec.kind <;> rw [hk] at hv
          · cases hv
          · cases hv
          · exact .inl ((C41_others v).2.2.2.1 hv)
          · exact .inr ((C41_elicitation v).2.1 hv)
        · rename_i hn
          unfold Store.wait at hw
          rw [hn] at hw; cases hw

/-- **C75.** While the client is in strict mode, every result it sends for one of these methods has the documented shape, whatever the
handlers return and whatever the request and the state are. -/
theorem C75_strict_results (env : CliEnv D H) (s s' : Cli D H) (hs : s.strict = true) (req : Request D) (r : Response D) (v : JVal D) (c : String)
    (p : Shape.Shape D) (hc : (c, p) ∈ (clientShapes : List (String × Shape.Shape D))) (hm : req.method = lit c)
    (h : onRequest env s req = (.answer r, s')) (hv : r.result = some v) : p v := by
  have key : Shaped p (onRequest env s req).1 := by
    simp only [clientShapes, List.mem_cons, Prod.mk.injEq, List.not_mem_nil, or_false] at hc
    rcases hc with ⟨rfl, rfl⟩ | ⟨rfl, rfl⟩ | ⟨rfl, rfl⟩ | ⟨rfl, rfl⟩ | ⟨rfl, rfl⟩
    · rw [onRequest_roots _ _ _ hm]
      show Shaped _ (cliRoots env s req.id)
      unfold cliRoots
      split
      · exact shaped_failed _ _ _ _
      · split
        · intro r v h; cases h
        · intro r v h; cases h
        · exact shaped_failed _ _ _ _
        · rw [hs]; exact shaped_checked (fun v hv => (C41_others v).2.1.1 hv) _ _ _
    · unfold onRequest
      rw [hm, if_neg (by decide), if_neg (by decide), if_pos rfl]
      show Shaped _ (cliGetTask s req)
      unfold cliGetTask
      split
      · exact shaped_failed _ _ _ _
      · rw [hs]; exact shaped_checkedReply (fun v hv => (C41_tasks v).1.1 hv) _ _ _
    · unfold onRequest
      rw [hm, if_neg (by decide), if_neg (by decide), if_neg (by decide), if_neg (by decide), if_neg (by decide), if_pos rfl]
      show Shaped _ (checkedReply s.strict _ _ _ _)
      rw [hs]; exact shaped_checkedReply (fun v hv => (C41_tasks v).1.1 hv) _ _ _
    · unfold onRequest
      rw [hm, if_neg (by decide), if_neg (by decide), if_neg (by decide), if_pos rfl]
      show Shaped _ (cliListTasks s req)
      unfold cliListTasks
      split
      · rw [hs]; exact shaped_checkedReply (fun v hv => (C41_tasks v).2.2.1 hv) _ _ _
      · exact shaped_failed _ _ _ _
    · rw [onRequest_result _ _ _ hm]; exact cliResult_shaped s hs req
  exact key r v (by rw [h]) hv

/-- **C75.** Elicitation and sampling: the result of a strict client has the shape of an elicitation or sampling result, or that of a
created task if the request asks for one. -/
theorem C75_strict_handlers (env : CliEnv D H) (s s' : Cli D H) (hs : s.strict = true) (req : Request D) (r : Response D) (v : JVal D)
    (h : onRequest env s req = (.answer r, s')) (hv : r.result = some v) :
    (req.method = lit "elicitation/create" → ¬ AsksTask req → Shape.ElicitationResult v) ∧
    (req.method = lit "sampling/createMessage" → ¬ AsksTask req → Shape.CreateMessageResult v) ∧
    (req.method = lit "elicitation/create" ∨ req.method = lit "sampling/createMessage" → AsksTask req → Shape.CreateTaskResult v) := by
  rw [← taskMeta_iff]
  have start : ∀ k ttl j, Shaped Shape.CreateTaskResult (startTask s env.now req.id k ttl j).1 := by
    intro k ttl j
    unfold startTask
    simp only
    rw [hs]; exact shaped_checked (fun v hv => (C41_tasks v).2.1.1 hv) _ _ _
  have e1 : req.method = lit "elicitation/create" → Shaped (fun v => (¬ (taskMeta req.params).isSome = true → Shape.ElicitationResult v) ∧
      ((taskMeta req.params).isSome = true → Shape.CreateTaskResult v)) (onRequest env s req).1 := by
    intro hm
    rw [onRequest_elicit _ _ _ hm]
    unfold cliElicit
    split
    · exact shaped_failed _ _ _ _
    · simp only
      split
      · exact shaped_failed _ _ _ _
      · cases ht : taskMeta req.params with
        | some ttl =>
          simp only
          split
          · exact fun r v h1 h2 => ⟨fun h => absurd rfl h, fun _ => start _ _ _ r v h1 h2⟩
          · exact shaped_failed _ _ _ _
        | none =>
          simp only
          have : Shaped Shape.ElicitationResult (elicitSync env s.strict req.id ‹H› (elicitOf (req.params.getD (.obj [])))) := by
            unfold elicitSync
            split
            · intro r v h; cases h
            · intro r v h; cases h
            · exact shaped_failed _ _ _ _
            · rw [hs]; exact shaped_checked (fun v hv => (C41_elicitation v).2.1 hv) _ _ _
          exact fun r v h1 h2 => ⟨fun _ => this r v h1 h2, fun h => by cases h⟩
  have e2 : req.method = lit "sampling/createMessage" → Shaped (fun v => (¬ (taskMeta req.params).isSome = true → Shape.CreateMessageResult v) ∧
      ((taskMeta req.params).isSome = true → Shape.CreateTaskResult v)) (onRequest env s req).1 := by
    intro hm
    rw [onRequest_sample _ _ _ hm]
    unfold cliSample
    cases ht : taskMeta req.params with
    | some ttl =>
      simp only
      split
      · split
        · exact shaped_failed _ _ _ _
        · split
          · exact shaped_failed _ _ _ _
          · exact fun r v h1 h2 => ⟨fun h => absurd rfl h, fun _ => start _ _ _ r v h1 h2⟩
      · exact shaped_failed _ _ _ _
    | none =>
      simp only
      have : Shaped Shape.CreateMessageResult (sampleSync env s req) := by
        unfold sampleSync
        split
        · exact shaped_failed _ _ _ _
        · split
          · exact shaped_failed _ _ _ _
          · split
            · intro r v h; cases h
            · intro r v h; cases h
            · exact shaped_failed _ _ _ _
            · split
              · exact shaped_failed _ _ _ _
              · rw [hs]; exact shaped_checked (fun v hv => (C41_others v).2.2.2.1 hv) _ _ _
      exact fun r v h1 h2 => ⟨fun _ => this r v h1 h2, fun h => by cases h⟩
  refine ⟨fun hm => (e1 hm r v (by rw [h]) hv).1, fun hm => (e2 hm r v (by rw [h]) hv).1, ?_⟩
  rintro (hm | hm)
  · exact (e1 hm r v (by rw [h]) hv).2
  · exact (e2 hm r v (by rw [h]) hv).2

/-- **C75.** Parameters of the wrong shape never reach the handlers of a strict client: the request is refused with InvalidParams (or, for
a task the client does not support, MethodNotAllowed) and nothing changes, whatever the handlers would do. -/
theorem C75_bad_params (env : CliEnv D H) (s : Cli D H) (hs : s.strict = true) (req : Request D) :
    (req.method = lit "elicitation/create" → s.elicit.isSome → ¬ Shape.ElicitationRequest (req.params.getD (.obj [])) →
      onRequest env s req = (.answer ⟨req.id, none, some (mkErrorObj (-32602) (lit "Invalid elicitation/create params") none)⟩, s)) ∧
    (req.method = lit "sampling/createMessage" → s.sampler.isSome → ¬ Shape.CreateMessageParams (req.params.getD (.obj [])) → ¬ AsksTask req ∨ cliAllows s (·.createMessage) = true →
      onRequest env s req = (.answer ⟨req.id, none, some (mkErrorObj (-32602) (lit "Invalid sampling/createMessage params") none)⟩, s)) ∧
    (req.method = lit "sampling/createMessage" → AsksTask req → cliAllows s (·.createMessage) = false →
      ∃ e, onRequest env s req = (.answer ⟨req.id, none, some e⟩, s)) := by
  rw [← taskMeta_iff, ← (C41_elicitation _).1, ← (C41_others _).2.2.1]
  refine ⟨?_, ?_, ?_⟩
  · intro hm he hv
    obtain ⟨h, he⟩ := Option.isSome_iff_exists.1 he
    rw [Bool.not_eq_true] at hv
    rw [onRequest_elicit _ _ _ hm]
    simp only [cliElicit, he, hs, hv, Bool.not_false, Bool.and_self, if_true]
    rfl
  · intro hm he hv ht
    obtain ⟨h, he⟩ := Option.isSome_iff_exists.1 he
    rw [Bool.not_eq_true] at hv
    rw [onRequest_sample _ _ _ hm]
    unfold cliSample
    cases hp : taskMeta req.params with
    | none =>
      simp only [sampleSync, he, hs, hv, Bool.not_false, Bool.and_self, if_true]
      rfl
    | some ttl =>
      have ha : cliAllows s (·.createMessage) = true := by
        rcases ht with ht | ht
        · rw [hp] at ht; exact absurd rfl ht
        · exact ht
      simp only [he, hs, hv, ha, Bool.not_false, Bool.and_self, if_true]
      rfl
  · intro hm hp ha
    obtain ⟨ttl, hp⟩ := Option.isSome_iff_exists.1 hp
    rw [onRequest_sample _ _ _ hm]
    unfold cliSample
    simp only [hp, ha, Bool.false_eq_true, if_false]
    exact ⟨_, rfl⟩

/-- **C75.** A client that is not strict refuses no parameters: whatever they are, elicitation and sampling requests reach the handler (here
one that throws `w`, which is then reported). -/
theorem C75_lenient (env : CliEnv D H) (s : Cli D H) (hs : s.strict = false) (req : Request D) (ht : ¬ AsksTask req) (h : H) (w : Bytes) :
    (req.method = lit "elicitation/create" → s.elicit = some h → (∀ r, env.elicit h r = .std w) →
      onRequest env s req = (.answer ⟨req.id, none, some (mkErrorObj (-32603) w none)⟩, s)) ∧
    (req.method = lit "sampling/createMessage" → s.sampling = some h ∨ s.sampling = none ∧ s.samplingCancelable = some h → (∀ a, env.sample h a = .std w) →
      onRequest env s req = (.answer ⟨req.id, none, some (mkErrorObj (-32603) w none)⟩, s)) := by
  rw [← taskMeta_iff, Bool.not_eq_true, Option.isSome_eq_false_iff, Option.isNone_iff_eq_none] at ht
  refine ⟨fun hm he hw => ?_, fun hm he hw => ?_⟩
  · rw [onRequest_elicit _ _ _ hm]
    simp only [cliElicit, he, hs, Bool.false_and, Bool.false_eq_true, if_false, ht, elicitSync, hw]
    rfl
  · rw [onRequest_sample _ _ _ hm]
    simp only [cliSample, ht, sampleSync, sampler_of he, hs, Bool.false_and, Bool.false_eq_true, if_false, hw]
    rfl

example : (readyCli.step (.setStrict true)).strict = true ∧ (readyCli.step (.setStrict true)).elicit.isSome ∧
    ¬ Shape.ElicitationRequest (.obj [(lit "message", .int 3)] : JVal Empty) := by
  refine ⟨rfl, rfl, ?_⟩
  rw [← (C41_elicitation _).1]
  decide
example : ∃ r v, (onRequest echoCli (readyCli.step (.setStrict true)) ⟨.int 1, lit "roots/list", none⟩).1 = .answer r ∧ r.result = some v :=
  ⟨_, _, rfl, rfl⟩

/-! ### C78 -/

/-- **C78**, in part: `RequestRootsList`, `RequestElicitation` and the task requests of a strict server return a value only if the result of
the client has the documented shape. Missing: sampling results, see `C78_sampling_counterexample`. -/
theorem C78_strict_answers_partial (i : RpcId) (v : JVal D) (threw : Bytes) :
    (∀ l, rootsOf true (.resp ⟨i, some v, none⟩) = some l → Shape.RootsList v) ∧
    (∀ x, elicitResOf true (.resp ⟨i, some v, none⟩) = some x → Shape.ElicitationResult v) ∧
    (∀ x, sampleTask true threw (.resp ⟨i, some v, none⟩) = .ok x → Shape.CreateTaskResult v) ∧
    (∀ x, elicitTask true threw (.resp ⟨i, some v, none⟩) = .ok x → Shape.CreateTaskResult v) := by
  refine ⟨fun l h => ?_, fun l h => ?_, fun l h => ?_, fun l h => ?_⟩
  · rw [← (C41_others v).2.1]
    cases hv : validateRootsList v with
    | true => rfl
    | false => simp [rootsOf, hv] at h
  · rw [← (C41_elicitation v).2]
    cases hv : validateElicitationResult v with
    | true => rfl
    | false => simp [elicitResOf, hv] at h
  · rw [← (C41_tasks v).2.1]
    cases hv : validateCreateTaskResult v with
    | true => rfl
    | false => simp [sampleTask, strictCall, hv] at h
  · rw [← (C41_tasks v).2.1]
    cases hv : validateCreateTaskResult v with
    | true => rfl
    | false => simp [elicitTask, strictCall, hv] at h

/-- **C78** is false for `RequestCreateMessage`: whatever the client answers is returned unchecked, in every mode. -/
theorem C78_sampling_counterexample (i : RpcId) : ∃ v : JVal D, ¬ Shape.CreateMessageResult v ∧ sampleOf (.resp ⟨i, some v, none⟩) = v := by
  refine ⟨.null, ?_, rfl⟩
  rw [← (C41_others _).2.2.2]
  exact Bool.false_ne_true

example : rootsOf true (.resp ⟨.int 1, some (rootsJson [⟨lit "u", none, none⟩]), none⟩ : Outcome Empty) = some [⟨lit "u", none, none⟩] := rfl
example : elicitResOf true (.resp ⟨.int 1, some (elicitResJson ⟨lit "accept", none, none⟩), none⟩ : Outcome Empty) = some ⟨lit "accept", none, none⟩ := rfl

/-! ### C77 -/

/-- **C77.** What `SendProgress` sends reaches the progress handler of the client with the same token, progress and message; a strict client
drops it if the token is empty or the progress is not within [0, 1]. -/
theorem C77_progress [Unit01 D] (strict hasStatus : Bool) (reg : Bytes → Bool) (token : Bytes) (p : D) (m : Bytes)
    (h : strict = true → token ≠ [] ∧ Unit01.within p = true) :
    onNotification strict true hasStatus reg (progressNote token p m) = .progress token p m := by
  have ha : progressArgs strict [(lit "progressToken", .str token), (lit "progress", .dbl p), (lit "message", .str m)] = some (token, p, m) := by
    show (if (strict && !(!token.isEmpty && Unit01.within p)) = true then none else some (token, p, m)) = _
    cases strict with
    | false => rfl
    | true =>
      obtain ⟨h1, h2⟩ := h rfl
      cases token with
      | nil => exact absurd rfl h1
      | cons a t => simp [h2]
  unfold onNotification progressNote
  rw [if_pos ⟨rfl, rfl, rfl⟩]
  simp only [ha]

/-- **C77.** A strict client calls the progress handler only with a token and a progress within [0, 1], whatever it is sent. -/
theorem C77_strict_progress [Unit01 D] (hasProgress hasStatus : Bool) (reg : Bytes → Bool) (n : Notification D) (token : Bytes) (p : D) (m : Bytes)
    (h : onNotification true hasProgress hasStatus reg n = .progress token p m) : token ≠ [] ∧ Unit01.within p = true := by
  unfold onNotification at h
  split at h
  · split at h
    · rename_i o _
      cases hx : progressArgs true o with
      | none => rw [hx] at h; cases h
      | some x =>
        obtain ⟨t, q, y⟩ := x
        rw [hx] at h
        cases h
        unfold progressArgs at hx
        simp only at hx
        split at hx
        · cases hx
        · rename_i hc
          cases hx
          simp only [Bool.true_and, Bool.not_eq_true', Bool.not_eq_false, Bool.and_eq_true] at hc
          refine ⟨?_, hc.2⟩
          intro e
          rw [e] at hc
          exact absurd hc.1 (by decide)
    · cases h
  · split at h
    · split at h
      · split at h <;> cases h
      · cases h
    · split at h
      · split at h
        · split at h <;> cases h
        · cases h
      · split at h <;> cases h

/-- **C77** is false for a server that writes its progress as an integer: the handler of a client that is not strict is told zero. -/
theorem C77_integer_progress_counterexample [Unit01 D] (hasStatus : Bool) (reg : Bytes → Bool) (token : Bytes) (i : Int) (m : Bytes) :
    onNotification false true hasStatus reg
      ⟨lit "notifications/progress", some (.obj [(lit "progressToken", .str token), (lit "progress", .int i), (lit "message", .str m)])⟩ =
    (.progress token Unit01.zero m : Called D) := by
  unfold onNotification
  rw [if_pos ⟨rfl, rfl, rfl⟩]
  rfl

/-- **C77** is false for progress tokens that are integers: the handler is told the empty token. -/
theorem C77_integer_token_counterexample [Unit01 D] (hasStatus : Bool) (reg : Bytes → Bool) (i : Int) (p : D) (m : Bytes) :
    onNotification false true hasStatus reg
      ⟨lit "notifications/progress", some (.obj [(lit "progressToken", .int i), (lit "progress", .dbl p), (lit "message", .str m)])⟩ =
    (.progress [] p m : Called D) := by
  unfold onNotification
  rw [if_pos ⟨rfl, rfl, rfl⟩]
  rfl

/-- **C77.** A task status notification of the server hands the client's status handler exactly the task, strict or not. -/
theorem C77_task_status [Unit01 D] (strict hasProgress : Bool) (reg : Bytes → Bool) (t : Task) :
    onNotification strict hasProgress true reg ⟨lit "notifications/tasks/status", some (serTask t : JVal D)⟩ = .taskStatus t := by
  unfold onNotification
  have h1 : ¬ lit "notifications/tasks/status" = lit "notifications/progress" := by decide
  have h2 : ¬ lit "notifications/tasks/status" = lit "notifications/cancelled" := by decide
  rw [if_neg (fun h => h1 h.1), if_neg h2, if_pos ⟨rfl, rfl, rfl⟩]
  simp only [serTask_valid, Bool.not_true, Bool.and_false, Bool.false_eq_true, if_false, serTask_parse]

/-- **C77.** A notification of any other method reaches the handler registered for it, with its parameters; none is handed over for methods
without one. -/
theorem C77_handlers [Unit01 D] (strict hasProgress hasStatus : Bool) (reg : Bytes → Bool) (n : Notification D) (h1 : n.method ≠ lit "notifications/progress")
    (h2 : n.method ≠ lit "notifications/cancelled") (h3 : n.method ≠ lit "notifications/tasks/status") :
    onNotification strict hasProgress hasStatus reg n = if reg n.method then .handler n.method (n.params.getD .null) else .nothing := by
  unfold onNotification
  rw [if_neg (fun h => h1 h.1), if_neg h2, if_neg (fun h => h3 h.1)]

/-- **C77.** A cancellation names the request, by string or by number. -/
theorem C77_cancelled [Unit01 D] (strict hasProgress hasStatus : Bool) (reg : Bytes → Bool) (id : Bytes) (hid : id ≠ []) (k : Int) :
    onNotification strict hasProgress hasStatus reg ⟨lit "notifications/cancelled", some (.obj [(lit "id", .str id)] : JVal D)⟩ = .cancel id ∧
    onNotification strict hasProgress hasStatus reg ⟨lit "notifications/cancelled", some (.obj [(lit "id", .int k)] : JVal D)⟩ = .cancel (intDec k) := by
  have h1 : ¬ lit "notifications/cancelled" = lit "notifications/progress" := by decide
  refine ⟨?_, ?_⟩
  · unfold onNotification
    rw [if_neg (fun h => h1 h.1), if_pos rfl]
    exact if_neg hid
  · unfold onNotification
    rw [if_neg (fun h => h1 h.1), if_pos rfl]
    exact if_neg (Cancel.intDec_ne k)

instance : Unit01 Unit := ⟨(), fun _ => true⟩
example : onNotification true true false (fun _ => false) (progressNote (lit "t") () (lit "m")) = .progress (lit "t") () (lit "m") :=
  C77_progress _ _ _ _ _ _ (fun _ => ⟨by decide, rfl⟩)

end Verif
