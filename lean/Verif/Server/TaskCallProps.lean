import Verif.Server.DispatchProps
import Verif.Validation.Props

/-!
C35 (task-mode tool calls follow the declaration of the tool), C65 (a task delivers what the call would have returned), C66 (tasks end).
-/

set_option linter.unusedSectionVars false

namespace Verif

open Server Tasks Resource Validation
open Caps hiding Obj

variable {D H : Type}

/-! ### What a dispatch does to the state -/

theorem dispatch_tools (env : Env D H) (s : Srv D H) (req : Request D) (h : req.method = lit "tools/call") :
    dispatch env s req = (afterwards env.cancelled2 req.id (toolsCall env s req).1, (toolsCall env s req).2) := by
  unfold dispatch
  rw [h]
  rw [if_neg (by decide), if_neg (by decide), if_neg (by decide), if_neg (by decide), if_neg (by decide), if_neg (by decide),
    if_neg (by decide), if_neg (by decide), if_pos rfl]

theorem dispatch_result (env : Env D H) (s : Srv D H) (req : Request D) (h : req.method = lit "tasks/result") :
    dispatch env s req = (tasksResult s req, s) := by
  unfold dispatch
  rw [h]
  rw [if_neg (by decide), if_neg (by decide), if_neg (by decide), if_neg (by decide), if_neg (by decide), if_neg (by decide), if_pos rfl]

/-- A step that runs no tool and touches no task, except possibly cancelling one that was named. -/
structure Quiet (s s' : Srv D H) (req : Request D) : Prop where
  runs : s'.runs = s.runs
  workers : s'.workers = s.workers
  reg : s'.reg = s.reg
  strict : s'.strict = s.strict
  tasks : s'.tasks = s.tasks ∨ req.method = lit "tasks/cancel" ∧ ∃ id p now, taskIdParam req.params = some id ∧ s'.tasks = (s.tasks.cancel id p now).2.2

theorem quiet_self (s : Srv D H) (req : Request D) : Quiet s s req := ⟨rfl, rfl, rfl, rfl, .inl rfl⟩

theorem handleCancel_tasks (s : Store D) (al : Bool) (p : Option (JVal D)) (now : Bytes) :
    (handleCancel s al p now).2 = s ∨ ∃ id q n, taskIdParam p = some id ∧ (handleCancel s al p now).2 = (s.cancel id q n).2.2 := by
  unfold handleCancel
  split
  · split
    · exact .inl rfl
    · rename_i id hid
      refine .inr ⟨id, mkErrorObj Code.internalError (lit "Cancelled") none, now, hid, ?_⟩
      generalize s.cancel id (mkErrorObj Code.internalError (lit "Cancelled") none) now = c
      obtain ⟨b, o, s'⟩ := c
      cases b <;> cases o <;> rfl
  · exact .inl rfl

theorem dispatch_quiet (env : Env D H) (s : Srv D H) (req : Request D) (h : req.method ≠ lit "tools/call") :
    Quiet s (dispatch env s req).2 req := by
  unfold dispatch
  refine iteP (P := fun o : Out D × Srv D H => Quiet s o.2 req) (fun hm => ?_) (fun _ => ?_); · exact quiet_self _ _
  refine iteP (P := fun o : Out D × Srv D H => Quiet s o.2 req) (fun hm => ?_) (fun _ => ?_); · exact ⟨rfl, rfl, rfl, rfl, .inl rfl⟩
  refine iteP (P := fun o : Out D × Srv D H => Quiet s o.2 req) (fun hm => ?_) (fun _ => ?_)
  · unfold setLogLevel
    split
    · split
      · split
        · exact ⟨rfl, rfl, rfl, rfl, .inl rfl⟩
        · exact quiet_self _ _
      · exact quiet_self _ _
    · exact quiet_self _ _
  refine iteP (P := fun o : Out D × Srv D H => Quiet s o.2 req) (fun hm => ?_) (fun _ => ?_); · exact quiet_self _ _
  refine iteP (P := fun o : Out D × Srv D H => Quiet s o.2 req) (fun hm => ?_) (fun _ => ?_); · exact quiet_self _ _
  refine iteP (P := fun o : Out D × Srv D H => Quiet s o.2 req) (fun hm => ?_) (fun _ => ?_); · exact quiet_self _ _
  refine iteP (P := fun o : Out D × Srv D H => Quiet s o.2 req) (fun hm => ?_) (fun _ => ?_); · exact quiet_self _ _
  refine iteP (P := fun o : Out D × Srv D H => Quiet s o.2 req) (fun hm => ?_) (fun _ => ?_)
  · refine ⟨rfl, rfl, rfl, rfl, ?_⟩
    rcases handleCancel_tasks s.tasks (match s.caps.tasks with | some t => t.cancel | none => false) req.params env.now with h | h
    · exact .inl h
    · exact .inr ⟨hm, h⟩
  refine iteP (P := fun o : Out D × Srv D H => Quiet s o.2 req) (fun hm => ?_) (fun _ => ?_); · exact absurd hm h
  refine iteP (P := fun o : Out D × Srv D H => Quiet s o.2 req) (fun hm => ?_) (fun _ => ?_); · exact quiet_self _ _
  refine iteP (P := fun o : Out D × Srv D H => Quiet s o.2 req) (fun hm => ?_) (fun _ => ?_); · exact quiet_self _ _
  refine iteP (P := fun o : Out D × Srv D H => Quiet s o.2 req) (fun hm => ?_) (fun _ => ?_); · exact quiet_self _ _
  refine iteP (P := fun o : Out D × Srv D H => Quiet s o.2 req) (fun hm => ?_) (fun _ => ?_); · exact ⟨rfl, rfl, rfl, rfl, .inl rfl⟩
  refine iteP (P := fun o : Out D × Srv D H => Quiet s o.2 req) (fun hm => ?_) (fun _ => ?_); · exact ⟨rfl, rfl, rfl, rfl, .inl rfl⟩
  refine iteP (P := fun o : Out D × Srv D H => Quiet s o.2 req) (fun hm => ?_) (fun _ => ?_); · exact quiet_self _ _
  refine iteP (P := fun o : Out D × Srv D H => Quiet s o.2 req) (fun hm => ?_) (fun _ => ?_); · exact quiet_self _ _
  refine iteP (P := fun o : Out D × Srv D H => Quiet s o.2 req) (fun hm => ?_) (fun _ => ?_); · exact quiet_self _ _
  refine iteP (P := fun o : Out D × Srv D H => Quiet s o.2 req) (fun hm => ?_) (fun _ => ?_); · exact quiet_self _ _
  exact quiet_self _ _

/-! ### C35 -/

theorem strAt_iff (v : JVal D) (k s : Bytes) : v.strAt k = some s ↔ ∃ m, v = .obj m ∧ AMap.get m k = some (.str s) := by
  cases v <;> try (simp [JVal.strAt, JVal.get?]; done)
  rename_i m
  simp only [JVal.strAt, JVal.get?, JVal.obj.injEq, exists_eq_left']
  cases AMap.get m k with
  | none => simp
  | some x => cases x <;> simp [JVal.asStr]

theorem objAt_iff (v : JVal D) (k : Bytes) (o : Obj D) : v.objAt k = some o ↔ ∃ m, v = .obj m ∧ AMap.get m k = some (.obj o) := by
  cases v <;> try (simp [JVal.objAt, JVal.get?]; done)
  rename_i m
  simp only [JVal.objAt, JVal.get?, JVal.obj.injEq, exists_eq_left']
  cases AMap.get m k with
  | none => simp
  | some x => cases x <;> simp [JVal.asObj]

theorem taskMeta_iff (req : Request D) : (taskMeta req.params).isSome = true ↔ AsksTask req := by
  unfold taskMeta AsksTask
  cases hp : req.params with
  | none => simp
  | some p =>
    simp only
    cases ho : p.objAt (lit "task") with
    | none =>
      refine ⟨fun h => by simp at h, ?_⟩
      rintro ⟨m, t, h1, h2⟩
      rw [(objAt_iff p (lit "task") t).2 ⟨m, Option.some.inj h1, h2⟩] at ho; cases ho
    | some o =>
      obtain ⟨m, h1, h2⟩ := (objAt_iff _ _ _).1 ho
      exact ⟨fun _ => ⟨m, o, by rw [h1], h2⟩, fun _ => rfl⟩

theorem declares_iff (reg : Reg D H) (name : Bytes) (c : String) :
    Declares reg name c ↔ ∃ t, AMap.get reg.toolMeta name = some t ∧ ∃ e, t.execution = some e ∧ e.strAt (lit "taskSupport") = some (lit c) := by
  unfold Declares
  constructor
  · rintro ⟨t, e, h1, h2, h3⟩
    exact ⟨t, h1, _, h2, (strAt_iff _ _ _).2 ⟨e, rfl, h3⟩⟩
  · rintro ⟨t, h1, e, h2, h3⟩
    obtain ⟨m, rfl, h4⟩ := (strAt_iff _ _ _).1 h3
    exact ⟨t, m, h1, h2, h4⟩

theorem support_required (reg : Reg D H) (name : Bytes) :
    supportOf (AMap.get reg.toolMeta name) = .required ↔ Declares reg name "required" := by
  rw [declares_iff]
  unfold supportOf
  cases hg : AMap.get reg.toolMeta name with
  | none => simp
  | some t =>
    unfold toolSupport
    cases he : t.execution with
    | none => simp [he]
    | some e =>
      simp only [Option.some.injEq, exists_eq_left', he]
      cases e.strAt (lit "taskSupport") with
      | none => simp
      | some v =>
        simp only [Option.some.injEq]
        by_cases h1 : v = lit "required"
        · simp [h1]
        · rw [if_neg h1]
          split <;> simp [h1]

theorem support_optional (reg : Reg D H) (name : Bytes) :
    supportOf (AMap.get reg.toolMeta name) = .optional ↔ Declares reg name "optional" := by
  rw [declares_iff]
  unfold supportOf
  cases hg : AMap.get reg.toolMeta name with
  | none => simp
  | some t =>
    unfold toolSupport
    cases he : t.execution with
    | none => simp [he]
    | some e =>
      simp only [Option.some.injEq, exists_eq_left', he]
      cases e.strAt (lit "taskSupport") with
      | none => simp
      | some v =>
        simp only [Option.some.injEq]
        by_cases h1 : v = lit "optional"
        · subst h1
          rw [if_neg (by decide), if_pos rfl]; simp
        · rw [if_neg h1]
          split <;> simp [h1]

theorem calls_iff (req : Request D) (name : Bytes) (args : JVal D) :
    Calls req name args ↔ req.method = lit "tools/call" ∧ name ≠ [] ∧ nameOf req.params = name ∧ argsOf req.params = args := by
  unfold Calls nameOf argsOf
  constructor
  · rintro ⟨h1, h2, m, hp, hn, ha⟩
    refine ⟨h1, h2, ?_, ?_⟩
    · rw [hp, Option.getD_some, (strAt_iff _ _ _).2 ⟨m, rfl, hn⟩]; rfl
    · rw [hp, ha]; rfl
  · rintro ⟨h1, h2, h3, h4⟩
    refine ⟨h1, h2, ?_⟩
    cases hs : (req.params.getD .null).strAt (lit "name") with
    | none => rw [hs] at h3; exact absurd h3.symm h2
    | some n =>
      rw [hs] at h3
      obtain ⟨m, hm, hn⟩ := (strAt_iff _ _ _).1 hs
      cases hp : req.params with
      | none => rw [hp] at hm; cases hm
      | some p =>
        rw [hp] at hm h4
        simp only [Option.getD_some] at hm h3
        subst hm h3
        exact ⟨m, rfl, hn, h4.symm⟩

/-- `e` is a use of a tool that request `req` may cause in state `s`. -/
def Justified (s : Srv D H) (req : Request D) : Run D → Prop
  | .sync name args => Calls req name args ∧ ¬ AsksTask req ∧ ¬ Declares s.reg name "required"
  | .task name args _ => Calls req name args ∧ AsksTask req ∧ (Declares s.reg name "required" ∨ Declares s.reg name "optional")

/-- The cases of `toolsCall`. -/
theorem toolsCall_cases (env : Env D H) (s : Srv D H) (req : Request D) :
    (toolsCall env s req).2 = s ∨
    (∃ name h, nameOf req.params = name ∧ name ≠ [] ∧ AMap.get s.reg.toolHandlers name = some h ∧ env.callable h = true ∧
      taskMeta req.params = none ∧ supportOf (AMap.get s.reg.toolMeta name) ≠ .required ∧
      toolsCall env s req = (toolSync env s.strict req.id h (argsOf req.params), { s with runs := s.runs ++ [.sync name (argsOf req.params)] })) ∨
    (∃ name h ttl, nameOf req.params = name ∧ name ≠ [] ∧ AMap.get s.reg.toolHandlers name = some h ∧ env.callable h = true ∧
      taskMeta req.params = some ttl ∧ supportOf (AMap.get s.reg.toolMeta name) ≠ .forbidden ∧
      toolsCall env s req = (checked s.strict validateCreateTaskResult (lit "Invalid task creation result shape") req.id
          (serCreate (s.tasks.create .toolCall ttl env.now).1 none),
        { s with tasks := (s.tasks.create .toolCall ttl env.now).2
                 workers := s.workers ++ [((s.tasks.create .toolCall ttl env.now).1.taskId, h, argsOf req.params)]
                 runs := s.runs ++ [.task name (argsOf req.params) (s.tasks.create .toolCall ttl env.now).1.taskId] })) := by
  unfold toolsCall
  simp only
  split
  · exact .inl rfl
  · rename_i hn
    split
    · exact .inl rfl
    · rename_i h hg
      split
      · rename_i hc
        cases ht : taskMeta req.params with
        | none =>
          cases hs : supportOf (AMap.get s.reg.toolMeta (nameOf req.params)) with
          | required => exact .inl rfl
          | optional => exact .inr (.inl ⟨_, h, rfl, hn, hg, hc, rfl, by rw [hs]; decide, rfl⟩)
          | forbidden => exact .inr (.inl ⟨_, h, rfl, hn, hg, hc, rfl, by rw [hs]; decide, rfl⟩)
        | some ttl =>
          cases hs : supportOf (AMap.get s.reg.toolMeta (nameOf req.params)) with
          | required => exact .inr (.inr ⟨_, h, ttl, rfl, hn, hg, hc, rfl, by rw [hs]; decide, rfl⟩)
          | optional => exact .inr (.inr ⟨_, h, ttl, rfl, hn, hg, hc, rfl, by rw [hs]; decide, rfl⟩)
          | forbidden => exact .inl rfl
      · exact .inl rfl

/-- **C35.** One request runs at most one tool, and only the tool it calls, in a mode that the request asks for and the tool declares. -/
theorem C35_step (env : Env D H) (s : Srv D H) (req : Request D) :
    (dispatch env s req).2.runs = s.runs ∨ ∃ e, (dispatch env s req).2.runs = s.runs ++ [e] ∧ Justified s req e := by
  by_cases hm : req.method = lit "tools/call"
  · rw [dispatch_tools env s req hm]
    rcases toolsCall_cases env s req with h | ⟨name, h, hn, h0, hg, hc, ht, hs, he⟩ | ⟨name, h, ttl, hn, h0, hg, hc, ht, hs, he⟩
    · exact .inl (by simp only; rw [h])
    · refine .inr ⟨.sync name (argsOf req.params), by simp only; rw [he], (calls_iff _ _ _).2 ⟨hm, h0, hn, rfl⟩, ?_, ?_⟩
      · rw [← taskMeta_iff, ht]; simp
      · rw [← support_required]; exact hs
    · refine .inr ⟨.task name (argsOf req.params) (s.tasks.create .toolCall ttl env.now).1.taskId, by simp only; rw [he],
        (calls_iff _ _ _).2 ⟨hm, h0, hn, rfl⟩, ?_, ?_⟩
      · rw [← taskMeta_iff, ht]; rfl
      · rw [← support_required, ← support_optional]
        cases hx : supportOf (AMap.get s.reg.toolMeta name) with
        | required => exact .inl rfl
        | optional => exact .inr rfl
        | forbidden => exact absurd hx hs
  · exact .inl (dispatch_quiet env s req hm).runs

theorem srv_run_append (s : Srv D H) (a b : List (SrvOp D H)) : s.run (a ++ b) = (s.run a).run b := by
  simp [Srv.run, List.foldl_append]

theorem work_runs (env : Env D H) (s : Srv D H) (k : Nat) :
    (s.work env k).runs = s.runs ∧ (s.work env k).reg = s.reg ∧ (s.work env k).strict = s.strict := by
  unfold Srv.work
  split
  · exact ⟨rfl, rfl, rfl⟩
  · simp only
    split
    · exact ⟨rfl, rfl, rfl⟩
    · exact ⟨rfl, rfl, rfl⟩
    · exact ⟨rfl, rfl, rfl⟩
    · split <;> exact ⟨rfl, rfl, rfl⟩

/-- **C35.** In every execution, every use of a tool, in either mode, was caused by a request that called that tool with those
arguments in that mode at a moment when the tool declared that it supports the mode. -/
theorem C35_history (name : Bytes) (ops : List (SrvOp D H)) (e : Run D) (he : e ∈ ((Srv.init name : Srv D H).run ops).runs) :
    ∃ pre env req post, ops = pre ++ .request env req :: post ∧ Justified ((Srv.init name : Srv D H).run pre) req e := by
  have key : ∀ (r : List (SrvOp D H)), e ∈ ((Srv.init name : Srv D H).run r.reverse).runs →
      ∃ pre env req post, r.reverse = pre ++ .request env req :: post ∧ Justified ((Srv.init name : Srv D H).run pre) req e := by
    intro r
    induction r with
    | nil => intro h; cases h
    | cons op r ih =>
      intro h
      rw [List.reverse_cons, srv_run_append] at h
      have lift : e ∈ ((Srv.init name : Srv D H).run r.reverse).runs →
          ∃ pre env req post, (op :: r).reverse = pre ++ .request env req :: post ∧ Justified ((Srv.init name : Srv D H).run pre) req e := by
        intro h
        obtain ⟨pre, env, req, post, h1, h2⟩ := ih h
        exact ⟨pre, env, req, post ++ [op], by rw [List.reverse_cons, h1]; simp, h2⟩
      generalize hs : (Srv.init name : Srv D H).run r.reverse = s at h lift
      change e ∈ (s.step op).runs at h
      cases op with
      | request env req =>
        change e ∈ (dispatch env s req).2.runs at h
        rcases C35_step env s req with h1 | ⟨e', h1, h2⟩
        · rw [h1] at h; exact lift h
        · rw [h1] at h
          rcases List.mem_append.1 h with h | h
          · exact lift h
          · rw [List.mem_singleton] at h
            subst h
            exact ⟨r.reverse, env, req, [], by simp, by rw [hs]; exact h2⟩
      | worker env k =>
        change e ∈ (s.work env k).runs at h
        rw [(work_runs env s k).1] at h; exact lift h
      | register c op => exact lift h
      | setStrict b => exact lift h
      | setSampling h' => exact lift h
      | setCompletion h' => exact lift h
  have := key ops.reverse
  rw [List.reverse_reverse] at this
  exact this he

/-- **C35.** A call of a registered tool runs it in the mode the request asks for if the tool declares support, and otherwise is refused
with MethodNotFound without running anything. -/
theorem C35_mode (env : Env D H) (s : Srv D H) (req : Request D) (name : Bytes) (args : JVal D) (h : H) (hc : Calls req name args)
    (hg : AMap.get s.reg.toolHandlers name = some h) (hcall : env.callable h = true) :
    (¬ AsksTask req → ¬ Declares s.reg name "required" → (dispatch env s req).2.runs = s.runs ++ [.sync name args]) ∧
    (AsksTask req → (Declares s.reg name "required" ∨ Declares s.reg name "optional") →
      ∃ id, (dispatch env s req).2.runs = s.runs ++ [.task name args id]) ∧
    ((AsksTask req ∧ ¬ Declares s.reg name "required" ∧ ¬ Declares s.reg name "optional" ∨ ¬ AsksTask req ∧ Declares s.reg name "required") →
      env.cancelled2 = false →
      ∃ e, dispatch env s req = (.answer ⟨req.id, none, some e⟩, s) ∧ e.intAt (lit "code") = some (-32601)) := by
  obtain ⟨hm, h0, hn, ha⟩ := (calls_iff _ _ _).1 hc
  rw [dispatch_tools env s req hm, ← taskMeta_iff, ← support_required, ← support_optional]
  unfold toolsCall
  simp only [hn, ha, if_neg h0, hg, hcall, if_true]
  cases ht : taskMeta req.params with
  | none =>
    cases hs : supportOf (AMap.get s.reg.toolMeta name) with
    | required =>
      refine ⟨by simp, by simp, ?_⟩
      intro _ hcn
      exact ⟨mkErrorObj Code.methodNotFound (lit "Tool requires task-augmented invocation") none, by simp [afterwards, failed, hcn], rfl⟩
    | optional => exact ⟨by simp, by simp, by simp⟩
    | forbidden => exact ⟨by simp, by simp, by simp⟩
  | some ttl =>
    cases hs : supportOf (AMap.get s.reg.toolMeta name) with
    | required => exact ⟨by simp, fun _ _ => ⟨_, rfl⟩, by simp⟩
    | optional => exact ⟨by simp, fun _ _ => ⟨_, rfl⟩, by simp⟩
    | forbidden =>
      refine ⟨by simp, by simp, ?_⟩
      intro _ hcn
      exact ⟨mkErrorObj Code.methodNotFound (lit "Tool does not support task-augmented invocation") none, by simp [afterwards, failed, hcn], rfl⟩

/-- A server with a tool `t` that declares optional task support. -/
def optSrv : Srv D Nat :=
  (Srv.init (lit "s")).run [.register false (.tool { defaultTool (lit "t") with execution := some (.obj [(lit "taskSupport", .str (lit "optional"))]) } 7)]

/-- A request to run it as a task. -/
def taskCall : Request D := ⟨.int 1, lit "tools/call", some (.obj [(lit "name", .str (lit "t")), (lit "task", .obj [])])⟩

example : Calls (taskCall : Request Empty) (lit "t") .null ∧ AsksTask (taskCall : Request Empty) ∧
    AMap.get (optSrv : Srv Empty Nat).reg.toolHandlers (lit "t") = some 7 ∧ Declares (optSrv : Srv Empty Nat).reg (lit "t") "optional" :=
  ⟨⟨rfl, by decide, _, rfl, rfl, rfl⟩, ⟨_, _, rfl, rfl⟩, rfl, ⟨_, _, rfl, rfl, rfl⟩⟩

example : Run.task (lit "t") .null (lit "task-1") ∈ ((optSrv : Srv Empty Nat).run [.request calmEnv taskCall]).runs := by
  show _ ∈ [Run.task (lit "t") (.null : JVal Empty) (lit "task-" ++ natDec 1)]
  have : lit "task-" ++ natDec 1 = lit "task-1" := by decide
  rw [this]; exact List.mem_singleton.2 rfl

/-- **C34.** Also a tool that throws anything but a `std::exception` leaves its request unanswered, although it has run. -/
theorem C34_tool_escape_counterexample (env : Env D H) (s : Srv D H) (req : Request D) (name : Bytes) (args : JVal D) (h : H)
    (hc : Calls req name args) (hg : AMap.get s.reg.toolHandlers name = some h) (hcall : env.callable h = true) (ha : ¬ AsksTask req)
    (hs : ¬ Declares s.reg name "required") (he : env.tool h args = .other) :
    (dispatch env s req).1 = .escaped ∧ (dispatch env s req).2.runs = s.runs ++ [.sync name args] := by
  refine ⟨?_, (C35_mode env s req name args h hc hg hcall).1 ha hs⟩
  obtain ⟨hm, h0, hn, hargs⟩ := (calls_iff _ _ _).1 hc
  rw [dispatch_tools env s req hm]
  rw [← taskMeta_iff] at ha
  rw [← support_required] at hs
  unfold toolsCall
  simp only [hn, hargs, if_neg h0, hg, hcall, if_true]
  cases ht : taskMeta req.params with
  | some ttl => rw [ht] at ha; exact absurd rfl ha
  | none =>
    cases hx : supportOf (AMap.get s.reg.toolMeta name) with
    | required => exact absurd hx hs
    | optional => simp [toolSync, he, afterwards]
    | forbidden => simp [toolSync, he, afterwards]

example : ({ (calmEnv : Env Empty Nat) with tool := fun _ _ => .other }).tool 7 .null = .other ∧
    ¬ AsksTask (⟨.int 1, lit "tools/call", some (.obj [(lit "name", .str (lit "t"))])⟩ : Request Empty) := by
  refine ⟨rfl, ?_⟩
  rw [← taskMeta_iff]
  simp [taskMeta, JVal.objAt, JVal.get?, AMap.get]
  decide

end Verif
