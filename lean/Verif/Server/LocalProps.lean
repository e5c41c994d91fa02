import Verif.Server.Local
import Verif.Client.TypedModel
import Verif.Client.Calls

/-!
C106: what an application gets from its own server mirrors what a client gets.
-/

set_option linter.unusedSectionVars false

namespace Verif

open Server Tasks Resource Validation Client
open Caps hiding Obj

variable {D H : Type}

/-! ### Specification -/

/-- What the response to a request says: the value of its result, or the text of its error; nothing when there is no response. -/
def said : Out D → Ends (JVal D)
  | .answer r =>
    match r.result, r.error with
    | some v, none => .ret v
    | _, some (.obj m) => match AMap.get m (lit "message") with | some (.str w) => .std w | _ => .std []
    | _, _ => .std []
  | .escaped => .other
  | .blocked => .never

/-- The client calls this tool, with the request of `Client::CallTool`; nobody cancels it. -/
def askedTool (id : RpcId) (name : Bytes) (args : JVal D) : Request D := ⟨id, lit "tools/call", some (callParams name args)⟩
def askedRead (id : RpcId) (uri : Bytes) : Request D := ⟨id, lit "resources/read", some (readParams uri none none)⟩
def askedPrompt (id : RpcId) (name : Bytes) (args : JVal D) : Request D := ⟨id, lit "prompts/get", some (callParams name args)⟩

/-- Nobody cancels the request. -/
def Uncancelled (env : Env D H) : Prop := env.cancelled0 = false ∧ env.cancelled1 = false ∧ env.cancelled2 = false

/-! ### Proofs -/

theorem said_failed (id : RpcId) (c : Int) (w : Bytes) : said (failed id c w : Out D) = .std w := by
  simp [said, failed, mkErrorObj, AMap.get, lit]

theorem said_okay (id : RpcId) (v : JVal D) : said (okay id v) = .ret v := rfl

theorem said_afterwards (id : RpcId) (o : Out D) : afterwards false id o = o := by
  cases o <;> rfl

theorem dispatch_askedTool (env : Env D H) (hq : Uncancelled env) (s : Srv D H) (id : RpcId) (name : Bytes) (args : JVal D) :
    (dispatch env s (askedTool id name args)).1 = (toolsCall env s (askedTool id name args)).1 := by
  have h2 := hq.2.2
  unfold dispatch
  simp [askedTool, lit, h2, said_afterwards]

theorem dispatch_askedRead (env : Env D H) (hq : Uncancelled env) (s : Srv D H) (id : RpcId) (uri : Bytes) :
    (dispatch env s (askedRead id uri)).1 = resourcesRead env s (askedRead id uri) := by
  have h2 := hq.2.2
  unfold dispatch
  simp [askedRead, lit, h2, said_afterwards]

theorem dispatch_askedPrompt (env : Env D H) (hq : Uncancelled env) (s : Srv D H) (id : RpcId) (name : Bytes) (args : JVal D) :
    (dispatch env s (askedPrompt id name args)).1 = promptsGet env s (askedPrompt id name args) := by
  have h0 := hq.1
  have h2 := hq.2.2
  unfold dispatch
  simp [askedPrompt, lit, h0, h2, said_afterwards]

theorem name_call (name : Bytes) (args : JVal D) : nameOf (some (callParams name args)) = name := by
  simp [nameOf, callParams, JVal.strAt, JVal.get?, AMap.get, JVal.asStr]

theorem args_call (name : Bytes) (args : JVal D) : argsOf (some (callParams name args)) = args := by
  simp [argsOf, callParams, JVal.get?, AMap.get, lit]

theorem meta_call (name : Bytes) (args : JVal D) : taskMeta (some (callParams name args)) = none := by
  simp [taskMeta, callParams, JVal.objAt, JVal.get?, AMap.get, lit]

/-- The answer to a tool call that reaches the handler. -/
theorem toolsCall_called (env : Env D H) (hq : Uncancelled env) (s : Srv D H) (id : RpcId) (name : Bytes) (args : JVal D) (hn : name ≠ []) (h : H)
    (hh : AMap.get s.reg.toolHandlers name = some h) (hc : env.callable h = true) (hr : supportOf (AMap.get s.reg.toolMeta name) ≠ .required) :
    (toolsCall env s (askedTool id name args)).1 = toolSync env s.strict id h args := by
  unfold toolsCall
  simp only [askedTool, name_call, args_call, meta_call, if_neg hn, hh, hc, if_true]

/-- A local tool call mirrors the response to the same call of a client, results and errors alike, for a tool that is registered and may be called without a
task, when the result has neither structured content nor metadata of its own and passes the validation of strict servers.

Partial: the counterexamples below show each of these conditions to be needed. -/
theorem C106_tool_partial (env : Env D H) (hq : Uncancelled env) (s : Srv D H) (id : RpcId) (name : Bytes) (args : JVal D) (hn : name ≠ []) (h : H)
    (hh : AMap.get s.reg.toolHandlers name = some h) (hc : env.callable h = true) (hr : supportOf (AMap.get s.reg.toolMeta name) ≠ .required)
    (hp : ∀ r, env.tool h args = .ret r → r.structured = none ∧ r.meta_ = none)
    (hv : ∀ r, env.tool h args = .ret r → s.strict = true → validateCallToolResult (toolResultJson r) = true) :
    localTool env s name args = said (dispatch env s (askedTool id name args)).1 := by
  rw [dispatch_askedTool env hq, toolsCall_called env hq s id name args hn h hh hc hr]
  unfold localTool toolSync
  simp only [hh, hc, if_true]
  cases he : env.tool h args with
  | never => rfl
  | other => rfl
  | std w => exact (said_failed id _ w).symm
  | ret r =>
    obtain ⟨h1, h2⟩ := hp r he
    have hj : toolResultJson r = .obj [(lit "content", .arr r.content), (lit "isError", .bool r.isError)] := by
      simp [toolResultJson, h1, h2, optField]
    have hc1 := hq.2.1
    simp only [hc1, Bool.false_eq_true, if_false, checked]
    have : (s.strict && !validateCallToolResult (toolResultJson r)) = false := by
      cases hs : s.strict with
      | false => rfl
      | true => simp [hv r he hs]
    rw [this]
    simp only [Bool.false_eq_true, if_false]
    rw [said_okay, hj]

/-- Structured content and metadata of a tool's result reach a client and not the application's own call, whatever they are. -/
theorem C106_structured_counterexample (env : Env D H) (hq : Uncancelled env) (s : Srv D H) (id : RpcId) (name : Bytes) (args : JVal D) (hn : name ≠ []) (h : H)
    (hh : AMap.get s.reg.toolHandlers name = some h) (hc : env.callable h = true) (hr : supportOf (AMap.get s.reg.toolMeta name) ≠ .required)
    (hs : s.strict = false) (r : ToolRes D) (he : env.tool h args = .ret r) :
    (∀ x, r.structured = some x → ∃ v, said (dispatch env s (askedTool id name args)).1 = .ret v ∧ v.get? (lit "structuredContent") = some x) ∧
    (∀ x, r.meta_ = some x → ∃ v, said (dispatch env s (askedTool id name args)).1 = .ret v ∧ v.get? (lit "_meta") = some x) ∧
    ∃ v, localTool env s name args = .ret v ∧ v.get? (lit "structuredContent") = none ∧ v.get? (lit "_meta") = none := by
  have hd : said (dispatch env s (askedTool id name args)).1 = .ret (toolResultJson r) := by
    rw [dispatch_askedTool env hq, toolsCall_called env hq s id name args hn h hh hc hr]
    simp only [toolSync, he, hq.2.1, checked, hs, Bool.false_and, Bool.false_eq_true, if_false]
    rfl
  refine ⟨?_, ?_, ?_⟩
  · intro x hx
    refine ⟨_, hd, ?_⟩
    simp [toolResultJson, hx, optField, JVal.get?, AMap.get, lit]
  · intro x hx
    refine ⟨_, hd, ?_⟩
    cases hst : r.structured <;> simp [toolResultJson, hx, hst, optField, JVal.get?, AMap.get, lit]
  · refine ⟨.obj [(lit "content", .arr r.content), (lit "isError", .bool r.isError)], ?_, ?_, ?_⟩
    · simp [localTool, hh, hc, he]
    · simp [JVal.get?, AMap.get, lit]
    · simp [JVal.get?, AMap.get, lit]

theorem get_map_none {B : Type} (f : H → B) (l : List (Bytes × H)) (k : Bytes) (h : AMap.get l k = none) : AMap.get (l.map fun e => (e.1, f e.2)) k = none := by
  induction l with
  | nil => rfl
  | cons e l ih =>
    simp only [AMap.get, List.map_cons] at h ⊢
    split at h
    · simp at h
    · next hne => simp only [if_neg hne]; exact ih h

theorem get_map {A B : Type} (f : A → B) (l : List (Bytes × A)) (k : Bytes) : AMap.get (l.map fun e => (e.1, f e.2)) k = (AMap.get l k).map f := by
  induction l with
  | nil => rfl
  | cons e l ih =>
    simp only [AMap.get, List.map_cons]
    split
    · rfl
    · exact ih

/-- A resolution in terms of what the handlers stand for. -/
def mapResolved {A B A' B' : Type} (f : A → A') (g : B → B') (r : Resolved A B) : Resolved A' B' :=
  ⟨r.direct.map f, r.template.map g, r.vars, r.usesTemplate, r.ambiguous⟩

theorem resolveLoop_map {A B A' B' : Type} (f : A → A') (g : B → B') (uri : Bytes) (l : List (Bytes × Option B)) : ∀ r : Resolved A B,
    resolveLoop uri (l.map fun e => (e.1, e.2.map g)) (mapResolved f g r) = mapResolved f g (resolveLoop uri l r) := by
  induction l with
  | nil => intro r; rfl
  | cons e l ih =>
    intro r
    obtain ⟨t, o⟩ := e
    cases o with
    | none => exact ih r
    | some h =>
      simp only [List.map_cons, Option.map_some, resolveLoop]
      cases matchTemplate t uri with
      | none => exact ih r
      | some vars =>
        dsimp only
        cases hu : r.usesTemplate with
        | true => simp [mapResolved, hu]
        | false =>
          have e : (mapResolved f g r).usesTemplate = false := hu
          simp only [e, Bool.false_eq_true, if_false]
          exact ih { r with usesTemplate := true, template := some h, vars := vars }

def mapChoice {A B A' B' : Type} (f : A → A') (g : B → B') : Choice A B → Choice A' B'
  | .ambiguous => .ambiguous
  | .notFound => .notFound
  | .direct h => .direct (f h)
  | .template h v => .template (g h) v
  | .badCall => .badCall

theorem choose_map {A B A' B' : Type} (f : A → A') (g : B → B') (uri : Bytes) (hs : List (Bytes × Option A)) (ts : List (Bytes × Option B)) :
    choose (hs.map fun e => (e.1, e.2.map f)) (ts.map fun e => (e.1, e.2.map g)) uri = mapChoice f g (choose hs ts uri) := by
  have hr : resolve (hs.map fun e => (e.1, e.2.map f)) (ts.map fun e => (e.1, e.2.map g)) uri = mapResolved f g (resolve hs ts uri) := by
    unfold resolve
    rw [get_map (fun o : Option A => o.map f)]
    cases AMap.get hs uri with
    | some h => rfl
    | none => exact resolveLoop_map f g uri ts ⟨none, none, Vars.empty, false, false⟩
  unfold choose
  rw [hr]
  cases h1 : (resolve hs ts uri).ambiguous <;> cases h2 : (resolve hs ts uri).direct <;> cases h3 : (resolve hs ts uri).template <;>
    cases h4 : (resolve hs ts uri).usesTemplate <;> simp [mapResolved, mapChoice, h1, h2, h3, h4]

/-- The answer to a read in terms of the choice of the handler. -/
def answerRead (s : Srv D H) (id : RpcId) : Choice (Ends (List (JVal D))) (Vars → Ends (List (JVal D))) → Out D
  | .ambiguous => failed id Code.internalError (lit "Ambiguous resource template match")
  | .notFound => failed id Code.resourceNotFound (lit "Resource not found")
  | .badCall => failed id Code.internalError (lit "bad_function_call")
  | .direct r => answerEnd r
  | .template f v => answerEnd (f v)
where
  answerEnd : Ends (List (JVal D)) → Out D
    | .ret l => match buildRead s.readCfg l none none with | .ok v => okay id v | .error w => failed id Code.internalError w
    | .std w => failed id Code.internalError w
    | .other => .escaped
    | .never => .blocked

theorem read_chosen (env : Env D H) (hq : Uncancelled env) (s : Srv D H) (id : RpcId) (uri : Bytes) (hn : uri ≠ []) :
    resourcesRead env s (askedRead id uri) = answerRead s id (choose (readers env s uri) (templateReaders env s uri) uri) := by
  have hu' : (readParams uri none none : JVal D).strAt (lit "uri") = some uri := by
    simp [readParams, JVal.strAt, JVal.get?, AMap.get, JVal.asStr]
  have ho : (readParams uri none none : JVal D).intAt (lit "offset") = none := by
    simp [readParams, JVal.intAt, JVal.get?, AMap.get, lit, optField]
  have hl : (readParams uri none none : JVal D).intAt (lit "length") = none := by
    simp [readParams, JVal.intAt, JVal.get?, AMap.get, lit, optField]
  have hu : uriOf (some (readParams uri none none) : Option (JVal D)) = uri := by
    simp only [uriOf, Option.getD_some, hu']
  have hrd : readable (some (readParams uri none none) : Option (JVal D)) = true := by
    simp only [readable, hu, Option.getD_some, ho, hl]
    simp [hn]
  have hc := hq.2.1
  unfold resourcesRead readCall
  simp only [askedRead, hrd, if_true, hu]
  unfold handleRead
  simp only [Option.getD_some, hu', ho, hl, if_neg hn, choose_map, hc]
  cases hch : choose (readers env s uri) (templateReaders env s uri) uri with
  | ambiguous => simp [mapChoice, answerRead, ofReply, Reply.toResponse, failed]
  | notFound => simp [mapChoice, answerRead, ofReply, Reply.toResponse, failed]
  | badCall => simp [mapChoice, answerRead, ofReply, Reply.toResponse, failed]
  | direct r =>
    cases r with
    | never => rfl
    | other => rfl
    | std w => simp [mapChoice, answerRead, answerRead.answerEnd, ofReply, Reply.toResponse, failed, Ends.ran]
    | ret l =>
      simp only [mapChoice, answerRead, answerRead.answerEnd, Ends.ran]
      cases buildRead s.readCfg l none none <;> simp [builtReply, ofReply, Reply.toResponse, failed, okay]
  | template f v =>
    simp only [mapChoice, answerRead]
    cases f v with
    | never => rfl
    | other => rfl
    | std w => simp [answerRead.answerEnd, ofReply, Reply.toResponse, failed, Ends.ran]
    | ret l =>
      simp only [answerRead.answerEnd, Ends.ran]
      cases buildRead s.readCfg l none none <;> simp [builtReply, ofReply, Reply.toResponse, failed, okay]

theorem afterRead_said (s : Srv D H) (id : RpcId) (e : Ends (List (JVal D))) : afterRead s e = said (answerRead.answerEnd s id e) := by
  cases e with
  | never => rfl
  | other => rfl
  | std w => exact (said_failed id _ w).symm
  | ret l =>
    simp only [afterRead, answerRead.answerEnd]
    cases buildRead s.readCfg l none none with
    | ok v => rfl
    | error w => exact (said_failed id _ w).symm

/-- A resource that some handler or template stands for (or several templates do) is read with the same result or error by the application and by a client.

Partial: a uri nothing stands for is an error only for a client, see below. -/
theorem C106_resource_partial (env : Env D H) (hq : Uncancelled env) (s : Srv D H) (id : RpcId) (uri : Bytes) (hn : uri ≠ [])
    (hf : said (dispatch env s (askedRead id uri)).1 ≠ .std (lit "Resource not found")) :
    localRead env s uri = said (dispatch env s (askedRead id uri)).1 := by
  rw [dispatch_askedRead env hq, read_chosen env hq s id uri hn] at hf ⊢
  unfold localRead
  cases hch : choose (readers env s uri) (templateReaders env s uri) uri with
  | ambiguous => exact (said_failed id _ _).symm
  | notFound => rw [hch] at hf; exact absurd (said_failed id _ _) hf
  | badCall => exact (said_failed id _ _).symm
  | direct r => exact afterRead_said s id r
  | template f v => exact afterRead_said s id (f v)

/-- A registered prompt gives the application and a client the same result or error, when the result passes the validation of strict servers.

Partial: unknown prompts and strict servers, see below. -/
theorem C106_prompt_partial (env : Env D H) (hq : Uncancelled env) (s : Srv D H) (id : RpcId) (name : Bytes) (args : JVal D) (h : H)
    (hh : AMap.get s.reg.promptHandlers name = some h)
    (hv : ∀ r, env.prompt h args = .ret r → s.strict = true → r.2.all isPromptMessageItem = true) :
    localPrompt env s name args = said (dispatch env s (askedPrompt id name args)).1 := by
  rw [dispatch_askedPrompt env hq]
  simp only [localPrompt, promptsGet, askedPrompt, name_call, args_call, hh]
  cases he : env.prompt h args with
  | never => rfl
  | other => rfl
  | std w => exact (said_failed id _ w).symm
  | ret r =>
    have : (s.strict && !r.2.all isPromptMessageItem) = false := by
      cases hs : s.strict with
      | false => rfl
      | true => simp only [hv r he hs]; rfl
    simp only [this, Bool.false_eq_true, if_false]
    rfl

/-- A tool that requires a task is refused to a client's plain call and run by the application's. -/
theorem C106_required_counterexample (env : Env D H) (hq : Uncancelled env) (s : Srv D H) (id : RpcId) (name : Bytes) (args : JVal D) (hn : name ≠ []) (h : H)
    (hh : AMap.get s.reg.toolHandlers name = some h) (hc : env.callable h = true) (hr : supportOf (AMap.get s.reg.toolMeta name) = .required)
    (r : ToolRes D) (he : env.tool h args = .ret r) :
    said (dispatch env s (askedTool id name args)).1 = .std (lit "Tool requires task-augmented invocation") ∧ ∃ v, localTool env s name args = .ret v := by
  constructor
  · rw [dispatch_askedTool env hq]
    unfold toolsCall
    simp only [askedTool, name_call, meta_call, if_neg hn, hh, hc, if_true, hr]
    exact said_failed _ _ _
  · simp [localTool, hh, hc, he]

/-- A strict server gives a client an error for a result of the wrong shape, and the application the result. -/
theorem C106_strict_counterexample (env : Env D H) (hq : Uncancelled env) (s : Srv D H) (hs : s.strict = true) (id : RpcId) (name : Bytes) (args : JVal D) (h : H)
    (hh : AMap.get s.reg.promptHandlers name = some h) (r : Bytes × List (JVal D)) (he : env.prompt h args = .ret r)
    (hv : r.2.all isPromptMessageItem = false) :
    said (dispatch env s (askedPrompt id name args)).1 = .std (lit "Invalid handler result shape") ∧
    ∃ v, localPrompt env s name args = .ret v ∧ v.get? (lit "messages") = some (.arr r.2) := by
  constructor
  · rw [dispatch_askedPrompt env hq]
    simp only [promptsGet, askedPrompt, name_call, args_call, hh, he, hs, hv, Bool.true_and, Bool.not_false, if_true]
    exact said_failed _ _ _
  · refine ⟨.obj [(lit "description", .str r.1), (lit "messages", .arr r.2)], by simp [localPrompt, hh, he], ?_⟩
    simp [JVal.get?, AMap.get, lit]

/-- A client is told that there is no such tool, prompt or resource; the application's own call ends like one that returned null. -/
theorem C106_unknown_counterexample (env : Env D H) (hq : Uncancelled env) (s : Srv D H) (id : RpcId) (name : Bytes) (args : JVal D) (hn : name ≠ []) :
    (AMap.get s.reg.toolHandlers name = none →
      said (dispatch env s (askedTool id name args)).1 = .std (lit "Tool not found") ∧ localTool env s name args = .ret .null) ∧
    (AMap.get s.reg.promptHandlers name = none →
      said (dispatch env s (askedPrompt id name args)).1 = .std (lit "Prompt not found") ∧ localPrompt env s name args = .ret .null) ∧
    (AMap.get s.reg.resHandlers name = none → s.reg.templates = [] →
      said (dispatch env s (askedRead id name)).1 = .std (lit "Resource not found") ∧ localRead env s name = .ret .null) := by
  refine ⟨?_, ?_, ?_⟩
  · intro h
    refine ⟨?_, by simp [localTool, h]⟩
    rw [dispatch_askedTool env hq]
    simp only [toolsCall, askedTool, name_call, if_neg hn, h]
    exact said_failed _ _ _
  · intro h
    refine ⟨?_, by simp [localPrompt, h]⟩
    rw [dispatch_askedPrompt env hq]
    simp only [promptsGet, askedPrompt, name_call, h]
    exact said_failed _ _ _
  · intro h ht
    have hch : choose (readers env s name) (templateReaders env s name) name = .notFound := by
      have hg : AMap.get (readers env s name) name = none := by
        unfold readers
        exact get_map_none (fun h => if env.callable h then some (env.read h name Vars.empty) else none) _ _ h
      simp only [choose, resolve, hg, templateReaders, ht, List.map_nil]
      rfl
    refine ⟨?_, by simp [localRead, hch]⟩
    rw [dispatch_askedRead env hq, read_chosen env hq s id name hn, hch]
    exact said_failed _ _ _

/-! ### Examples -/

/-- A server with the tools `t` and `u`, the resource `r` and the prompt `p`; handler 0 returns plain content, handler 1 structured content besides. -/
def sampleSrv (strict : Bool) : Srv Empty Nat :=
  { (Srv.init (lit "srv") : Srv Empty Nat) with
    strict := strict
    reg := { (Reg.init : Reg Empty Nat) with
      toolHandlers := [(lit "t", 0), (lit "u", 1)], resHandlers := [(lit "r", 0)], promptHandlers := [(lit "p", 0)] } }

def sampleEnv : Env Empty Nat :=
  { callable := fun _ => true
    tool := fun h args => .ret ⟨[args], false, if h = 1 then some (.int 3) else none, none⟩
    read := fun _ uri _ => .ret [.str uri]
    prompt := fun _ args => .ret (lit "d", [args])
    complete := fun _ _ => .never
    sample := fun _ _ => .never
    cancelled0 := false, cancelled1 := false, cancelled2 := false
    now := [] }

example : localTool sampleEnv (sampleSrv false) (lit "t") (.int 1) =
    said (dispatch sampleEnv (sampleSrv false) (askedTool (.int 7) (lit "t") (.int 1))).1 :=
  C106_tool_partial sampleEnv ⟨rfl, rfl, rfl⟩ (sampleSrv false) (.int 7) (lit "t") (.int 1) (by decide) 0 (by decide +kernel) rfl
    (by simp [sampleSrv, Srv.init, Reg.init, supportOf, AMap.get]) (by intro r h; simp [sampleEnv] at h; subst h; exact ⟨rfl, rfl⟩) (by simp [sampleSrv])

example : localRead sampleEnv (sampleSrv false) (lit "r") = said (dispatch sampleEnv (sampleSrv false) (askedRead (.int 7) (lit "r"))).1 := by
  refine C106_resource_partial sampleEnv ⟨rfl, rfl, rfl⟩ (sampleSrv false) (.int 7) (lit "r") (by decide) ?_
  rw [dispatch_askedRead sampleEnv ⟨rfl, rfl, rfl⟩, read_chosen sampleEnv ⟨rfl, rfl, rfl⟩ _ _ _ (by decide)]
  simp [choose, resolve, readers, sampleSrv, Srv.init, Reg.init, AMap.get, sampleEnv, answerRead, answerRead.answerEnd, buildRead, Srv.readCfg, metaOf, metaField,
    JVal.get?]
  simp [said, okay]

example : localPrompt sampleEnv (sampleSrv false) (lit "p") .null =
    said (dispatch sampleEnv (sampleSrv false) (askedPrompt (.int 7) (lit "p") .null)).1 :=
  C106_prompt_partial sampleEnv ⟨rfl, rfl, rfl⟩ (sampleSrv false) (.int 7) (lit "p") .null 0 (by decide +kernel) (by simp [sampleSrv])

/-- Tool `u` has structured content, `x` is not registered, and the prompt's message is not one in a strict server. -/
example : AMap.get (sampleSrv false).reg.toolHandlers (lit "u") = some 1 ∧
    sampleEnv.tool 1 (.int 1) = .ret ⟨[.int 1], false, some (.int 3), none⟩ ∧
    AMap.get (sampleSrv false).reg.toolHandlers (lit "x") = none ∧
    ((lit "d", [(.int 1 : JVal Empty)]) : Bytes × List (JVal Empty)).2.all isPromptMessageItem = false := by
  refine ⟨by decide +kernel, rfl, by decide +kernel, rfl⟩

end Verif
