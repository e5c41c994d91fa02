import Verif.Server.Caps
import Verif.Server.Listing

/-!
The request dispatcher of the server: `dispatchRequest` (src/mcp/Server.cpp 1549-1738), `handleToolsCall` (809-944), `handlePromptsGet`
(1369-1394), `handleCompleteRequest` (1396-1457), `handleSubscribeRequest`, `handleUnsubscribeRequest`, `handleCreateMessageRequest`
(1838-1919), `handleSetLogLevel` (2294-2329), `ToolTaskSupportMode` and the related-task metadata (src/mcp/TaskSupport.h 76-117, 278-292).

Handlers are opaque values of type `H`; an environment says how each call of them ends. A dispatch changes the state of the server in
at most one critical section, so it is modelled as one step; `tasks/result`, which waits for a task, is `blocked` in a state in which
the task has not ended (the wait re-examines the state whenever a task ends). The work of task-mode tool calls is done by background
workers, which are separate steps (`Srv.work`). Log output of the library is not modelled.
-/

namespace Verif.Server

open Items Validation Tasks Resource
open Caps hiding Obj

variable {D H : Type}

/-- How a call of user code ends. -/
inductive Ends (A : Type) where
  /-- It returns (or its future yields) a value. -/
  | ret (a : A)
  /-- It throws an exception derived from `std::exception`; `what()` is kept. -/
  | std (what : Bytes)
  /-- It throws something else. -/
  | other
  /-- It does not end. -/
  | never

/-- `CallToolResult`, include/mcp/Protocol.h 191-196. -/
structure ToolRes (D : Type) where
  content : List (JVal D)
  isError : Bool
  structured : Option (JVal D)
  meta_ : Option (JVal D)

/-- `CompletionResult`, Protocol.h 210-214. -/
structure Completion where
  values : List Bytes
  total : Option Int
  hasMore : Bool

/-- `CompleteParams`, Protocol.h 199-208. -/
structure CompleteArgs (D : Type) where
  ref : JVal D
  name : Bytes
  value : Bytes
  context : Option (JVal D)

/-- The arguments of the sampling handler. -/
structure SampleArgs (D : Type) where
  messages : JVal D
  modelPreferences : JVal D
  systemPrompt : JVal D
  includeContext : JVal D

/-- The world during one dispatch. -/
structure Env (D H : Type) where
  /-- The `std::function` is not empty. -/
  callable : H → Bool
  tool : H → JVal D → Ends (ToolRes D)
  read : H → Bytes → Vars → Ends (List (JVal D))
  prompt : H → JVal D → Ends (Bytes × List (JVal D))
  complete : H → CompleteArgs D → Ends Completion
  sample : H → SampleArgs D → Ends (JVal D)
  /-- The cancellation token before the handler, right after it, and at the end of the dispatch. -/
  cancelled0 : Bool
  cancelled1 : Bool
  cancelled2 : Bool
  /-- `UtcNowIso8601()`. -/
  now : Bytes

/-- `Logger::Level`, include/logging/Logger.h 61-67. -/
inductive Level where
  | debug | info | warn | error | fatal
  deriving DecidableEq

/-- A use of a tool handler: called inside the dispatch, or handed to a worker for the task `id`. -/
inductive Run (D : Type) where
  | sync (tool : Bytes) (args : JVal D)
  | task (tool : Bytes) (args : JVal D) (id : Bytes)

/-- The parts of `Server::Impl` the dispatcher uses. -/
structure Srv (D H : Type) where
  reg : Reg D H
  tasks : Store D
  /-- Workers that have not ended: task, handler, arguments. -/
  workers : List (Bytes × H × JVal D)
  caps : ServerCaps D
  client : ClientCaps D
  name : Bytes
  strict : Bool
  resourcesSubscribed : Bool
  subscribedUris : List Bytes
  logMin : Level
  completion : Option H
  sampling : Option H
  /-- History: uses of tool handlers. -/
  runs : List (Run D)

/-- What becomes of a dispatch. -/
inductive Out (D : Type) where
  | answer (r : Response D)
  /-- An exception leaves `dispatchRequest`. -/
  | escaped
  | blocked

/-- `ToolTaskSupportMode`, TaskSupport.h 278-292. -/
inductive Support where
  | required | optional | forbidden
  deriving DecidableEq

def toolSupport (t : Tool D) : Support :=
  match t.execution with
  | some e =>
    match e.strAt (lit "taskSupport") with
    | some v => if v = lit "required" then .required else if v = lit "optional" then .optional else .forbidden
    | none => .forbidden
  | none => .forbidden

/-- `taskSupport` of `handleToolsCall`, 850. -/
def supportOf (t : Option (Tool D)) : Support := match t with | some t => toolSupport t | none => .forbidden

/-- `buildToolResultJson`, 860-875. -/
def toolResultJson (r : ToolRes D) : JVal D :=
  .obj ([(lit "content", .arr r.content)] ++ optField (lit "structuredContent") r.structured ++ optField (lit "_meta") r.meta_ ++
    [(lit "isError", .bool r.isError)])

/-- An answer with an error object. -/
def failed (id : RpcId) (code : Int) (msg : Bytes) : Out D := .answer ⟨id, none, some (mkErrorObj code msg none)⟩

def okay (id : RpcId) (v : JVal D) : Out D := .answer ⟨id, some v, none⟩

def ofReply (id : RpcId) (r : Reply D) : Out D := .answer (Reply.toResponse id r)

/-- `if (strict && !valid(result)) error(InternalError, msg) else result`. -/
def checked (strict : Bool) (valid : JVal D → Bool) (msg : Bytes) (id : RpcId) (v : JVal D) : Out D :=
  if strict && !valid v then failed id Code.internalError msg else okay id v

/-- `checked` on a reply that may already be an error. -/
def checkedReply (strict : Bool) (valid : JVal D → Bool) (msg : Bytes) (id : RpcId) : Reply D → Out D
  | .ok v => checked strict valid msg id v
  | .fail c m => failed id c m

/-- `name` and `arguments` of a call, 818-828 and 641-655. -/
def nameOf (params : Option (JVal D)) : Bytes := ((params.getD .null).strAt (lit "name")).getD []
def argsOf (params : Option (JVal D)) : JVal D := ((params.getD .null).get? (lit "arguments")).getD .null

/-- The synchronous part of `handleToolsCall`, 920-943. -/
def toolSync (env : Env D H) (strict : Bool) (id : RpcId) (h : H) (args : JVal D) : Out D :=
  match env.tool h args with
  | .never => .blocked
  | .other => .escaped
  | .std e => failed id Code.internalError e
  | .ret r =>
    if env.cancelled1 then failed id Code.internalError (lit "Cancelled")
    else checked strict validateCallToolResult (lit "Invalid tool result shape") id (toolResultJson r)

/-- `handleToolsCall`, 809-944. -/
def toolsCall (env : Env D H) (s : Srv D H) (req : Request D) : Out D × Srv D H :=
  let name := nameOf req.params
  if name = [] then (failed req.id Code.invalidParams (lit "Invalid params"), s)
  else
    match AMap.get s.reg.toolHandlers name with
    | none => (failed req.id Code.toolNotFound (lit "Tool not found"), s)
    | some h =>
      if env.callable h then
        match taskMeta req.params, supportOf (AMap.get s.reg.toolMeta name) with
        | none, .required => (failed req.id Code.methodNotFound (lit "Tool requires task-augmented invocation"), s)
        | some _, .forbidden => (failed req.id Code.methodNotFound (lit "Tool does not support task-augmented invocation"), s)
        | some ttl, _ =>
          let c := s.tasks.create .toolCall ttl env.now
          (checked s.strict validateCreateTaskResult (lit "Invalid task creation result shape") req.id (serCreate c.1 none),
           { s with tasks := c.2, workers := s.workers ++ [(c.1.taskId, h, argsOf req.params)]
                    runs := s.runs ++ [.task name (argsOf req.params) c.1.taskId] })
        | none, _ => (toolSync env s.strict req.id h (argsOf req.params), { s with runs := s.runs ++ [.sync name (argsOf req.params)] })
      else (failed req.id Code.toolNotFound (lit "Tool not found"), s)

/-- A worker ends, 882-907. -/
def Srv.work (env : Env D H) (s : Srv D H) (k : Nat) : Srv D H :=
  match s.workers[k]? with
  | none => s
  | some (id, h, args) =>
    let s' := { s with workers := s.workers.eraseIdx k }
    match env.tool h args with
    | .never => s
    | .other => s'
    | .std e => { s' with tasks := (s.tasks.complete id (lit "failed") (some e) true (mkErrorObj Code.internalError e none) env.now).2.2 }
    | .ret r =>
      if s.strict && !validateCallToolResult (toolResultJson r) then
        { s' with tasks := (s.tasks.complete id (lit "failed") (some (lit "Invalid tool result shape")) true
            (mkErrorObj Code.internalError (lit "Invalid tool result shape") none) env.now).2.2 }
      else
        { s' with tasks := (s.tasks.complete id (if r.isError then lit "failed" else lit "completed") none false (toolResultJson r)
            env.now).2.2 }

/-- `RELATED_TASK_META_KEY`, TaskSupport.h 30. -/
def relatedKey : Bytes := lit "modelcontextprotocol.io/related-task"

def relatedValue (id : Bytes) : JVal D := .obj [(lit "taskId", .str id)]

/-- The object `m` at member `k`, or an empty one. -/
def subObj (m : Obj D) (k : Bytes) : Obj D := match AMap.get m k with | some (.obj o) => o | _ => []

/-- `AttachRelatedTaskMetaToResult`, TaskSupport.h 82-95. -/
def attachResult (v : JVal D) (id : Bytes) : JVal D :=
  match v with
  | .obj m => .obj (AMap.put m (lit "_meta") (.obj (AMap.put (subObj m (lit "_meta")) relatedKey (relatedValue id))))
  | v => v

/-- `AttachRelatedTaskMetaToError`, TaskSupport.h 97-117. -/
def attachError (v : JVal D) (id : Bytes) : JVal D :=
  match v with
  | .obj m =>
    let data := subObj m (lit "data")
    .obj (AMap.put m (lit "data")
      (.obj (AMap.put data (lit "_meta") (.obj (AMap.put (subObj data (lit "_meta")) relatedKey (relatedValue id))))))
  | v => v

/-- The strict validator for a task of this kind, 1651-1659. -/
def validFor (k : Kind) (v : JVal D) : Bool :=
  match k with
  | .toolCall => validateCallToolResult v
  | .createMessage => validateCreateMessageResult v
  | .elicitation => validateElicitationResult v
  | .unknown => false

/-- `tasks/result`, 1632-1662. -/
def tasksResult (s : Srv D H) (req : Request D) : Out D :=
  match taskIdParam req.params with
  | none => failed req.id Code.invalidParams (lit "Invalid taskId")
  | some id =>
    match s.tasks.wait id with
    | .unknown => failed req.id Code.invalidParams (lit "Unknown task")
    | .blocked => .blocked
    | .got true p => .answer ⟨req.id, none, some (attachError p id)⟩
    | .got false p =>
      match AMap.get s.tasks.records id with
      | some r => checked s.strict (validFor r.kind) (lit "Invalid task result shape") req.id (attachResult p id)
      | none => okay req.id (attachResult p id)

/-- `handlePromptsGet`, 1369-1394, with `serializePromptResult`, 657-666. -/
def promptsGet (env : Env D H) (s : Srv D H) (req : Request D) : Out D :=
  match req.params with
  | none => failed req.id Code.invalidParams (lit "Invalid params")
  | some _ =>
    match AMap.get s.reg.promptHandlers (nameOf req.params) with
    | none => failed req.id Code.promptNotFound (lit "Prompt not found")
    | some h =>
      match env.prompt h (argsOf req.params) with
      | .never => .blocked
      | .other => .escaped
      | .std e => failed req.id Code.internalError e
      | .ret r =>
        if s.strict && !r.2.all isPromptMessageItem then failed req.id Code.internalError (lit "Invalid handler result shape")
        else okay req.id (.obj [(lit "description", .str r.1), (lit "messages", .arr r.2)])

/-- The parameters of `completion/complete`, 1406-1430. -/
def completeArgs (o : Obj D) : Option (CompleteArgs D) :=
  match AMap.get o (lit "ref"), AMap.get o (lit "argument") with
  | some ref, some (.obj a) =>
    match AMap.get a (lit "name"), AMap.get a (lit "value") with
    | some (.str n), some (.str v) => some ⟨ref, n, v, AMap.get o (lit "context")⟩
    | _, _ => none
  | _, _ => none

def completionJson (c : Completion) : JVal D :=
  .obj [(lit "completion", .obj ([(lit "values", .arr (c.values.map .str))] ++ optField (lit "total") (c.total.map .int) ++
    [(lit "hasMore", .bool c.hasMore)]))]

/-- `handleCompleteRequest`, 1396-1457. -/
def completeRequest (env : Env D H) (s : Srv D H) (req : Request D) : Out D :=
  match s.completion with
  | none => failed req.id Code.methodNotAllowed (lit "No completion handler registered")
  | some h =>
    match req.params with
    | some (.obj o) =>
      match completeArgs o with
      | none => failed req.id Code.invalidParams (lit "Invalid params")
      | some a =>
        match env.complete h a with
        | .never => .blocked
        | .other => .escaped
        | .std e => failed req.id Code.internalError e
        | .ret c => checked s.strict validateCompletionResult (lit "Invalid completion result shape") req.id (completionJson c)
    | _ => failed req.id Code.invalidParams (lit "Invalid params")

/-- The arguments of the sampling handler, 1886-1893. -/
def sampleArgs (params : Option (JVal D)) : SampleArgs D :=
  let at_ (k : Bytes) : JVal D := ((params.getD .null).get? k).getD .null
  ⟨at_ (lit "messages"), at_ (lit "modelPreferences"), at_ (lit "systemPrompt"), at_ (lit "includeContext")⟩

/-- `handleCreateMessageRequest`, 1880-1919. -/
def createMessage (env : Env D H) (s : Srv D H) (req : Request D) : Out D :=
  match s.sampling with
  | none => failed req.id Code.methodNotAllowed (lit "No server sampling handler registered")
  | some h =>
    if s.strict && !validateCreateMessageParams (req.params.getD (.obj [])) then
      failed req.id Code.invalidParams (lit "Invalid sampling/createMessage params")
    else
      match env.sample h (sampleArgs req.params) with
      | .never => .blocked
      | .other => .escaped
      | .std e => failed req.id Code.internalError e
      | .ret v =>
        if env.cancelled1 then failed req.id Code.internalError (lit "Cancelled")
        else checked s.strict validateCreateMessageResult (lit "Invalid sampling result shape") req.id v

/-- The level named by `logging/setLevel`, 2308-2323: lower-cased, then compared. -/
def levelNamed (text : Bytes) : Option Level :=
  let l := text.map lowerCh
  if l = lit "debug" then some .debug
  else if l = lit "info" ∨ l = lit "notice" then some .info
  else if l = lit "warning" then some .warn
  else if l = lit "error" ∨ l = lit "critical" ∨ l = lit "alert" ∨ l = lit "emergency" then some .error
  else none

/-- `handleSetLogLevel`, 2294-2329. -/
def setLogLevel (s : Srv D H) (req : Request D) : Out D × Srv D H :=
  match req.params with
  | some (.obj o) =>
    match AMap.get o (lit "level") with
    | some (.str t) =>
      match levelNamed t with
      | some l => (okay req.id (.obj []), { s with logMin := l })
      | none => (failed req.id Code.invalidParams (lit "Unknown logging level"), s)
    | _ => (failed req.id Code.invalidParams (lit "Missing or invalid 'level'"), s)
  | _ => (failed req.id Code.invalidParams (lit "Invalid params"), s)

/-- `handleSubscribeRequest`, 1838-1854. -/
def subscribe (s : Srv D H) (req : Request D) : Out D × Srv D H :=
  (okay req.id (.obj []),
   { s with resourcesSubscribed := true
            subscribedUris := match (req.params.getD .null).strAt (lit "uri") with
              | some u => if s.subscribedUris.contains u then s.subscribedUris else s.subscribedUris ++ [u]
              | none => s.subscribedUris })

/-- `handleUnsubscribeRequest`, 1856-1878. -/
def unsubscribe (s : Srv D H) (req : Request D) : Out D × Srv D H :=
  let uris := match (req.params.getD .null).strAt (lit "uri") with
    | some u => s.subscribedUris.filter (fun x => decide (x ≠ u))
    | none => []
  (okay req.id (.obj []), { s with subscribedUris := uris, resourcesSubscribed := !uris.isEmpty })

/-- What the direct handlers and the templates do when called for `uri`. An empty `std::function` is `none`. -/
def readers (env : Env D H) (s : Srv D H) (uri : Bytes) : List (Bytes × Option (Ends (List (JVal D)))) :=
  s.reg.resHandlers.map (fun e => (e.1, if env.callable e.2 then some (env.read e.2 uri Vars.empty) else none))

def templateReader (env : Env D H) (uri : Bytes) (o : Option H) : Option (Vars → Ends (List (JVal D))) :=
  match o with
  | some h => if env.callable h then some (env.read h uri) else none
  | none => none

def templateReaders (env : Env D H) (s : Srv D H) (uri : Bytes) : List (Bytes × Option (Vars → Ends (List (JVal D)))) :=
  s.reg.templates.map (fun e => (e.1.uriTemplate, templateReader env uri e.2))

/-- The end of a call as `handleRead` wants it; the two other cases do not reach it. -/
def Ends.ran (e : Ends (List (JVal D))) : Ran D :=
  match e with | .ret l => .ok l | .std w => .error w | .other => .error [] | .never => .error []

/-- `uri` of a read, 948-960. -/
def uriOf (params : Option (JVal D)) : Bytes := ((params.getD .null).strAt (lit "uri")).getD []

/-- The parameters pass the checks 961-975. -/
def readable (params : Option (JVal D)) : Bool :=
  uriOf params ≠ [] && !decide (∃ o ∈ (params.getD .null).intAt (lit "offset"), o < 0) &&
    !decide (∃ l ∈ (params.getD .null).intAt (lit "length"), l ≤ 0)

/-- The handler call of a read, if there is one. -/
def readCall (env : Env D H) (s : Srv D H) (params : Option (JVal D)) : Option (Ends (List (JVal D))) :=
  if readable params then
    match choose (readers env s (uriOf params)) (templateReaders env s (uriOf params)) (uriOf params) with
    | .direct r => some r
    | .template f vars => some (f vars)
    | _ => none
  else none

/-- The settings of a read. -/
def Srv.readCfg (s : Srv D H) : ReadCfg D :=
  ⟨AMap.get s.caps.experimental (lit "resourceReadChunking"), uiSupported s.client, s.strict⟩

/-- `handleResourcesRead`, 946-1019. -/
def resourcesRead (env : Env D H) (s : Srv D H) (req : Request D) : Out D :=
  match readCall env s req.params with
  | some .other => .escaped
  | some .never => .blocked
  | _ =>
    ofReply req.id (handleRead s.readCfg
      ((readers env s (uriOf req.params)).map (fun e => (e.1, e.2.map Ends.ran)))
      ((templateReaders env s (uriOf req.params)).map (fun e => (e.1, e.2.map (fun f v => (f v).ran)))) env.cancelled1 req.params)

/-- The check after a handler, e.g. 1690-1693. -/
def afterwards (cancelled : Bool) (id : RpcId) (o : Out D) : Out D :=
  match o with
  | .answer r => if cancelled then failed id Code.internalError (lit "Cancelled") else .answer r
  | o => o

/-- The methods in the order in which they are tested. -/
def dispatch (env : Env D H) (s : Srv D H) (req : Request D) : Out D × Srv D H :=
  if req.method = lit "ping" then (okay req.id (.obj []), s)
  else if req.method = lit "initialize" then
    (okay req.id (initResult s.name s.caps),
     { s with client := match req.params with | some p => parseClient s.client p | none => s.client })
  else if req.method = lit "logging/setLevel" then setLogLevel s req
  else if req.method = lit "tools/list" then (ofReply req.id (handleTools s.reg s.strict req.params), s)
  else if req.method = lit "tasks/get" then
    (checkedReply s.strict validateTask (lit "Invalid task result shape") req.id (handleGet s.tasks req.params), s)
  else if req.method = lit "tasks/list" then
    (checkedReply s.strict validateTasksListResult (lit "Invalid tasks/list result shape") req.id (handleList s.tasks req.params), s)
  else if req.method = lit "tasks/result" then (tasksResult s req, s)
  else if req.method = lit "tasks/cancel" then
    let allowed := match s.caps.tasks with | some t => t.cancel | none => false
    (checkedReply s.strict validateTask (lit "Invalid task result shape") req.id (handleCancel s.tasks allowed req.params env.now).1,
     { s with tasks := (handleCancel s.tasks allowed req.params env.now).2 })
  else if req.method = lit "tools/call" then
    (afterwards env.cancelled2 req.id (toolsCall env s req).1, (toolsCall env s req).2)
  else if req.method = lit "completion/complete" then (completeRequest env s req, s)
  else if req.method = lit "resources/list" then (ofReply req.id (handleResources s.reg (uiSupported s.client) s.strict req.params), s)
  else if req.method = lit "resources/templates/list" then (ofReply req.id (handleTemplates s.reg s.strict req.params), s)
  else if req.method = lit "resources/subscribe" then subscribe s req
  else if req.method = lit "resources/unsubscribe" then unsubscribe s req
  else if req.method = lit "sampling/createMessage" then (createMessage env s req, s)
  else if req.method = lit "resources/read" then (afterwards env.cancelled2 req.id (resourcesRead env s req), s)
  else if req.method = lit "prompts/list" then (ofReply req.id (handlePrompts s.reg s.strict req.params), s)
  else if req.method = lit "prompts/get" then
    (if env.cancelled0 then failed req.id Code.internalError (lit "Cancelled")
     else afterwards env.cancelled2 req.id (promptsGet env s req), s)
  else (failed req.id Code.methodNotFound (lit "Method not found"), s)

/-! ### Executions -/

/-- What can happen to a server. -/
inductive SrvOp (D H : Type) where
  | request (env : Env D H) (req : Request D)
  | register (connected : Bool) (op : RegOp D H)
  | worker (env : Env D H) (k : Nat)
  | setStrict (b : Bool)
  | setSampling (h : Option H)
  | setCompletion (h : Option H)

/-- `SetSamplingHandler`, 3030-3035, advertises sampling even for an empty handler; `SetCompletionHandler`, 3037-3045, does not. -/
def Srv.step (s : Srv D H) : SrvOp D H → Srv D H
  | .request env req => (dispatch env s req).2
  | .register c op => { s with reg := s.reg.step (c, op) }
  | .worker env k => s.work env k
  | .setStrict b => { s with strict := b }
  | .setSampling h => { s with sampling := h, caps := { s.caps with sampling := true } }
  | .setCompletion h => { s with completion := h, caps := { s.caps with completions := h.isSome } }

def Srv.run (s : Srv D H) (ops : List (SrvOp D H)) : Srv D H := ops.foldl Srv.step s

/-- A new server, 1110-1136. -/
def Srv.init (name : Bytes) : Srv D H :=
  { reg := Reg.init, tasks := Store.init, workers := [], caps := defaultServer, client := ClientCaps.none_, name := name, strict := false
    resourcesSubscribed := false, subscribedUris := [], logMin := .debug, completion := none, sampling := none, runs := [] }

end Verif.Server
