import Verif.Client.Calls

/-!
Requests of the server to the client. The client's side: `onRequest` (src/mcp/Client.cpp 664-1073), `onNotification` with
`handleProgressNotification` (510-536, 595-628). The server's side: `coSendProgress` (src/mcp/Server.cpp 2223-2237),
`coRequestRootsList` (2331-2396), `coRequestCreateMessage` (2398-2455), `coRequestCreateMessageTask` (2457-2513),
`coRequestElicitation` (2582-2654), `coRequestElicitationTask` (2656-2712). `coRequestCreateMessageWithId` (2515-2580) differs from
`coRequestCreateMessage` only in the id of the request.

Handlers are opaque values of type `H` (an empty `std::function` is `none`); an environment says how each call of them ends. The
cancellation token is an input, as in Server/Dispatch; its bookkeeping (Client.cpp 208-303) is the same code as the server's, modelled
in Server/Cancel. Log output and the task status notifications sent by the client are not modelled.
-/

namespace Verif.Client

open Validation Errors Server Tasks
open Caps hiding Obj

variable {D H : Type}

/-- `Root`, include/mcp/Protocol.h 291-303. -/
structure Root (D : Type) where
  uri : Bytes
  name : Option Bytes
  meta_ : Option (JVal D)

/-- `ElicitationRequest`, Protocol.h 389-397. -/
structure ElicitReq (D : Type) where
  message : Bytes
  schema : JVal D
  title : Option Bytes
  mode : Option Bytes
  url : Option Bytes
  elicitationId : Option Bytes
  metadata : Option (JVal D)

/-- `ElicitationResult`, Protocol.h 399-403. -/
structure ElicitRes (D : Type) where
  action : Bytes
  content : Option (JVal D)
  elicitationId : Option Bytes

/-- `CreateMessageParams`, Protocol.h 369-380. -/
structure SampleReq (D : Type) where
  messages : List (JVal D)
  modelPreferences : Option (JVal D)
  systemPrompt : Option Bytes
  includeContext : Option Bytes
  maxTokens : Option Int
  temperature : Option D
  stopSequences : Option (List Bytes)
  metadata : Option (JVal D)

/-- The world during one request. -/
structure CliEnv (D H : Type) where
  roots : H → Ends (List (Root D))
  elicit : H → ElicitReq D → Ends (ElicitRes D)
  sample : H → SampleArgs D → Ends (JVal D)
  /-- The cancellation token after the sampling handler. -/
  cancelled : Bool
  now : Bytes

/-- What a worker is to do. -/
inductive Job (D : Type) where
  | elicit (r : ElicitReq D)
  | sample (a : SampleArgs D)

/-- The parts of `Client::Impl` that `onRequest` uses. -/
structure Cli (D H : Type) where
  caps : ClientCaps D
  strict : Bool
  roots : Option H
  elicit : Option H
  sampling : Option H
  samplingCancelable : Option H
  tasks : Store D
  /-- Workers that have not ended. -/
  workers : List (Bytes × Job D)

/-! ### The client's side -/

/-- One root, 682-693. -/
def rootJson (r : Root D) : JVal D :=
  .obj ([(lit "uri", .str r.uri)] ++ optField (lit "name") (r.name.map .str) ++ optField (lit "_meta") r.meta_)

def rootsJson (l : List (Root D)) : JVal D := .obj [(lit "roots", .arr (l.map rootJson))]

/-- `roots/list`, 671-706. -/
def cliRoots (env : CliEnv D H) (s : Cli D H) (id : RpcId) : Out D :=
  match s.roots with
  | none => failed id Code.methodNotAllowed (lit "No roots/list handler registered")
  | some h =>
    match env.roots h with
    | .never => .blocked
    | .other => .escaped
    | .std e => failed id Code.internalError e
    | .ret l => checked s.strict validateRootsList (lit "Invalid roots/list result shape") id (rootsJson l)

/-- `tasks/get`, 707-732. -/
def cliGetTask (s : Cli D H) (req : Request D) : Out D :=
  match s.caps.tasks with
  | none => failed req.id Code.methodNotAllowed (lit "Tasks not supported")
  | some _ => checkedReply s.strict validateTask (lit "Invalid task result shape") req.id (handleGet s.tasks req.params)

/-- `capabilities.tasks.has_value() && capabilities.tasks->list` (or `->cancel`). -/
def cliAllows (s : Cli D H) (f : ClientTasks → Bool) : Bool := match s.caps.tasks with | some t => f t | none => false

/-- `tasks/list`, 733-773; the parameters are read as on the server (Server.cpp 1595-1621). -/
def cliListTasks (s : Cli D H) (req : Request D) : Out D :=
  if cliAllows s (·.list) then
    checkedReply s.strict validateTasksListResult (lit "Invalid tasks/list result shape") req.id (handleList s.tasks req.params)
  else failed req.id Code.methodNotAllowed (lit "Task listing not supported")

/-- The strict validator for a task of this kind, 797-805. -/
def cliValidFor (k : Kind) (v : JVal D) : Bool :=
  match k with
  | .createMessage => validateCreateMessageResult v
  | .elicitation => validateElicitationResult v
  | _ => false

/-- `tasks/result`, 774-808. -/
def cliTaskResult (s : Cli D H) (req : Request D) : Out D :=
  match s.caps.tasks with
  | none => failed req.id Code.methodNotAllowed (lit "Tasks not supported")
  | some _ =>
    match taskIdParam req.params with
    | none => failed req.id Code.invalidParams (lit "Invalid taskId")
    | some id =>
      match s.tasks.wait id with
      | .unknown => failed req.id Code.invalidParams (lit "Unknown task")
      | .blocked => .blocked
      | .got true p => .answer ⟨req.id, none, some (attachError p id)⟩
      | .got false p =>
        match AMap.get s.tasks.records id with
        | some r => checked s.strict (cliValidFor r.kind) (lit "Invalid task result shape") req.id (attachResult p id)
        | none => okay req.id (attachResult p id)

/-- The request read from the parameters, 851-885; anything but an object leaves it default-constructed. -/
def elicitOf (v : JVal D) : ElicitReq D :=
  ⟨(v.strAt (lit "message")).getD [], (v.get? (lit "requestedSchema")).getD .null, v.strAt (lit "title"), v.strAt (lit "mode"),
    v.strAt (lit "url"), v.strAt (lit "elicitationId"), v.get? (lit "metadata")⟩

/-- 901-909 and 946-954. -/
def elicitResJson (r : ElicitRes D) : JVal D :=
  .obj ([(lit "action", .str r.action)] ++ optField (lit "content") r.content ++ optField (lit "elicitationId") (r.elicitationId.map .str))

/-- The synchronous part of `elicitation/create`, 945-967. -/
def elicitSync (env : CliEnv D H) (strict : Bool) (id : RpcId) (h : H) (r : ElicitReq D) : Out D :=
  match env.elicit h r with
  | .never => .blocked
  | .other => .escaped
  | .std e => failed id Code.internalError e
  | .ret x => checked strict validateElicitationResult (lit "Invalid elicitation result shape") id (elicitResJson x)

/-- A task is created and a worker started, 894-944 and 996-1036. -/
def startTask (s : Cli D H) (now : Bytes) (id : RpcId) (k : Kind) (ttl : Option Int) (j : Job D) : Out D × Cli D H :=
  let c := s.tasks.create k ttl now
  (checked s.strict validateCreateTaskResult (lit "Invalid task creation result shape") id (serCreate c.1 none),
   { s with tasks := c.2, workers := s.workers ++ [(c.1.taskId, j)] })

/-- `elicitation/create`, 836-968. -/
def cliElicit (env : CliEnv D H) (s : Cli D H) (req : Request D) : Out D × Cli D H :=
  match s.elicit with
  | none => (failed req.id Code.methodNotAllowed (lit "No elicitation handler registered"), s)
  | some h =>
    let v := req.params.getD (.obj [])
    if s.strict && !validateElicitationRequest v then (failed req.id Code.invalidParams (lit "Invalid elicitation/create params"), s)
    else
      match taskMeta req.params with
      | some ttl =>
        if cliAllows s (·.elicitationCreate) then startTask s env.now req.id .elicitation ttl (.elicit (elicitOf v))
        else (failed req.id Code.methodNotAllowed (lit "Task-augmented elicitation not supported"), s)
      | none => (elicitSync env s.strict req.id h (elicitOf v), s)

/-- The sampling handler that is used, 1000-1003 and 1049-1051. -/
def Cli.sampler (s : Cli D H) : Option H := match s.sampling with | some h => some h | none => s.samplingCancelable

/-- The synchronous part of `sampling/createMessage`, 1044-1064. -/
def sampleSync (env : CliEnv D H) (s : Cli D H) (req : Request D) : Out D :=
  match s.sampler with
  | none => failed req.id Code.methodNotAllowed (lit "No sampling handler registered")
  | some h =>
    if s.strict && !validateCreateMessageParams (req.params.getD (.obj [])) then
      failed req.id Code.invalidParams (lit "Invalid sampling/createMessage params")
    else
      match env.sample h (sampleArgs req.params) with
      | .never => .blocked
      | .other => .escaped
      | .std e => failed req.id Code.internalError e
      | .ret v =>
        if env.cancelled then failed req.id Code.internalError (lit "Cancelled")
        else checked s.strict validateCreateMessageResult (lit "Invalid sampling result shape") req.id v

/-- `sampling/createMessage`, 969-1064. -/
def cliSample (env : CliEnv D H) (s : Cli D H) (req : Request D) : Out D × Cli D H :=
  match taskMeta req.params with
  | some ttl =>
    if cliAllows s (·.createMessage) then
      match s.sampler with
      | none => (failed req.id Code.methodNotAllowed (lit "No sampling handler registered"), s)
      | some _ =>
        if s.strict && !validateCreateMessageParams (req.params.getD (.obj [])) then
          (failed req.id Code.invalidParams (lit "Invalid sampling/createMessage params"), s)
        else startTask s env.now req.id .createMessage ttl (.sample (sampleArgs req.params))
    else (failed req.id Code.methodNotAllowed (lit "Task-augmented sampling not supported"), s)
  | none => (sampleSync env s req, s)

/-- `onRequest`, 664-1073. -/
def onRequest (env : CliEnv D H) (s : Cli D H) (req : Request D) : Out D × Cli D H :=
  if req.method = lit "ping" then (okay req.id (.obj []), s)
  else if req.method = lit "roots/list" then (cliRoots env s req.id, s)
  else if req.method = lit "tasks/get" then (cliGetTask s req, s)
  else if req.method = lit "tasks/list" then (cliListTasks s req, s)
  else if req.method = lit "tasks/result" then (cliTaskResult s req, s)
  else if req.method = lit "tasks/cancel" then
    (checkedReply s.strict validateTask (lit "Invalid task result shape") req.id (handleCancel s.tasks (cliAllows s (·.cancel)) req.params env.now).1,
     { s with tasks := (handleCancel s.tasks (cliAllows s (·.cancel)) req.params env.now).2 })
  else if req.method = lit "elicitation/create" then cliElicit env s req
  else if req.method = lit "sampling/createMessage" then cliSample env s req
  else (failed req.id Code.methodNotFound (lit "Method not found"), s)

/-- `std::bad_function_call().what()` in libstdc++. -/
def badCall : Bytes := lit "bad_function_call"

/-- How the job of a worker ends: the result, or the exception. The handler is the one registered when the worker runs, 898-900 and
1000-1004. -/
def jobEnds (env : CliEnv D H) (s : Cli D H) : Job D → Ends (JVal D)
  | .elicit r =>
    match s.elicit with
    | none => .std badCall
    | some h => match env.elicit h r with | .ret x => .ret (elicitResJson x) | .std e => .std e | .other => .other | .never => .never
  | .sample a => match s.sampler with | none => .std badCall | some h => env.sample h a

/-- The strict check of a worker and its message, 910-918 and 1006-1014. -/
def jobValid : Job D → JVal D → Bool
  | .elicit _ => validateElicitationResult
  | .sample _ => validateCreateMessageResult
def jobBad : Job D → Bytes
  | .elicit _ => lit "Invalid elicitation result shape"
  | .sample _ => lit "Invalid sampling result shape"

/-- A worker ends, 896-925 and 998-1022. -/
def Cli.work (env : CliEnv D H) (s : Cli D H) (k : Nat) : Cli D H :=
  match s.workers[k]? with
  | none => s
  | some (id, j) =>
    let s' := { s with workers := s.workers.eraseIdx k }
    match jobEnds env s j with
    | .never => s
    | .other => s'
    | .std e => { s' with tasks := (s.tasks.complete id (lit "failed") (some e) true (mkErrorObj Code.internalError e none) env.now).2.2 }
    | .ret v =>
      if s.strict && !jobValid j v then
        { s' with tasks := (s.tasks.complete id (lit "failed") (some (jobBad j)) true (mkErrorObj Code.internalError (jobBad j) none) env.now).2.2 }
      else { s' with tasks := (s.tasks.complete id (lit "completed") none false v env.now).2.2 }

/-- What can happen to a client. -/
inductive CliOp (D H : Type) where
  | request (env : CliEnv D H) (req : Request D)
  | worker (env : CliEnv D H) (k : Nat)
  | setStrict (b : Bool)
  | setRoots (h : Option H)
  | setElicit (h : Option H)
  | setSampling (h : Option H)
  | setSamplingCancelable (h : Option H)
  /-- `Initialize`, 1113-1131, stores the capabilities. -/
  | initialize (c : ClientCaps D)

def Cli.step (s : Cli D H) : CliOp D H → Cli D H
  | .request env req => (onRequest env s req).2
  | .worker env k => s.work env k
  | .setStrict b => { s with strict := b }
  | .setRoots h => { s with roots := h }
  | .setElicit h => { s with elicit := h }
  | .setSampling h => { s with sampling := h }
  | .setSamplingCancelable h => { s with samplingCancelable := h }
  | .initialize c => { s with caps := c }

def Cli.run (s : Cli D H) (ops : List (CliOp D H)) : Cli D H := ops.foldl Cli.step s

/-- A new client, 305-313. -/
def Cli.init : Cli D H :=
  { caps := ClientCaps.none_, strict := false, roots := none, elicit := none, sampling := none, samplingCancelable := none, tasks := Store.init, workers := [] }

/-! ### The server's side -/

/-- One root of the answer, 2368-2388; `none` is skipped. -/
def parseRoot (v : JVal D) : Option (Root D) :=
  match v with
  | .obj _ =>
    let uri := (v.strAt (lit "uri")).getD []
    if uri = [] then none else some ⟨uri, v.strAt (lit "name"), v.get? (lit "_meta")⟩
  | _ => none

/-- What `coRequestRootsList` makes of the answer, 2350-2395; `none` is an exception. -/
def rootsOf (strict : Bool) : Outcome D → Option (List (Root D))
  | .threw => none
  | .nul => some []
  | .resp r =>
    match r.error, r.result with
    | none, some v =>
      if strict && !validateRootsList v then none
      else some (((v.arrAt (lit "roots")).getD []).filterMap parseRoot)
    | _, _ => some []

/-- The parameters of `coRequestCreateMessage`, 2406-2441. -/
def sampleParams (p : SampleReq D) : Obj D :=
  [(lit "messages", .arr p.messages)] ++ optField (lit "modelPreferences") p.modelPreferences ++
    optField (lit "systemPrompt") (p.systemPrompt.map .str) ++ optField (lit "includeContext") (p.includeContext.map .str) ++
    optField (lit "maxTokens") (p.maxTokens.map .int) ++ optField (lit "temperature") (p.temperature.map .dbl) ++
    optField (lit "stopSequences") (p.stopSequences.map (fun l => .arr (l.map .str))) ++ optField (lit "metadata") p.metadata

/-- What `coRequestCreateMessage` makes of the answer, 2443-2455. -/
def sampleOf : Outcome D → JVal D
  | .resp r => match r.result, r.error with | some v, _ => v | none, some e => e | none, none => .null
  | _ => .null

/-- The parameters of `coRequestElicitation`, 2597-2615. -/
def elicitParams (r : ElicitReq D) : Obj D :=
  [(lit "message", .str r.message), (lit "requestedSchema", r.schema)] ++ optField (lit "title") (r.title.map .str) ++
    optField (lit "mode") (r.mode.map .str) ++ optField (lit "url") (r.url.map .str) ++
    optField (lit "elicitationId") (r.elicitationId.map .str) ++ optField (lit "metadata") r.metadata

/-- The parameters of the task variants: `task` is added, 2493 and 2687. -/
def withTask (m : Obj D) (ttl : Option Int) : JVal D := .obj (m ++ [(lit "task", serMeta ttl)])

/-- What `coRequestElicitation` makes of the answer, 2623-2653; `none` is an exception. -/
def elicitResOf (strict : Bool) : Outcome D → Option (ElicitRes D)
  | .threw => none
  | .nul => some ⟨[], none, none⟩
  | .resp r =>
    match r.error, r.result with
    | none, some v =>
      if strict && !validateElicitationResult v then none
      else some ⟨(v.strAt (lit "action")).getD [], v.get? (lit "content"), v.strAt (lit "elicitationId")⟩
    | _, _ => some ⟨[], none, none⟩

/-- The answer of `coRequestCreateMessageTask` and `coRequestElicitationTask`, 2496-2512 and 2695-2711. -/
def sampleTask (strict : Bool) (threw : Bytes) (o : Outcome D) : Except Bytes (Task × Option (JVal D)) :=
  strictCall strict validateCreateTaskResult parseCreate (lit "sampling/createMessage task request failed")
    (lit "Validation failed: sampling/createMessage task result shape") threw o
def elicitTask (strict : Bool) (threw : Bytes) (o : Outcome D) : Except Bytes (Task × Option (JVal D)) :=
  strictCall strict validateCreateTaskResult parseCreate (lit "elicitation/create task request failed")
    (lit "Validation failed: elicitation/create task result shape") threw o

/-! ### Notifications -/

/-- `coSendProgress`, Server.cpp 2223-2237. -/
def progressNote (token : Bytes) (progress : D) (message : Bytes) : Notification D :=
  ⟨lit "notifications/progress", some (.obj [(lit "progressToken", .str token), (lit "progress", .dbl progress), (lit "message", .str message)])⟩

/-- `double` as far as progress needs it: zero, and the test for [0, 1]. -/
class Unit01 (D : Type) where
  zero : D
  within : D → Bool

/-- A `double`, or zero. -/
def dblOr [Unit01 D] : Option (JVal D) → D
  | some (.dbl d) => d
  | _ => Unit01.zero

/-- `handleProgressNotification`, Client.cpp 510-536: the arguments of the progress handler, if it is called. -/
def progressArgs [Unit01 D] (strict : Bool) (m : Obj D) : Option (Bytes × D × Bytes) :=
  let v : JVal D := .obj m
  let token := (v.strAt (lit "progressToken")).getD []
  let progress := dblOr (AMap.get m (lit "progress"))
  let message := (v.strAt (lit "message")).getD []
  if strict && !(!token.isEmpty && Unit01.within progress) then none else some (token, progress, message)

/-- What `onNotification` calls, 595-628. -/
inductive Called (D : Type) where
  | progress (token : Bytes) (p : D) (message : Bytes)
  | cancel (id : Bytes)
  | taskStatus (t : Task)
  | handler (method : Bytes) (params : JVal D)
  | nothing

/-- `parseIdFromParams`, 223-238. -/
def idParam (v : JVal D) : Bytes :=
  match v.get? (lit "id") with
  | some (.str s) => s
  | some (.int i) => intDec i
  | _ => []

/-- `onNotification`, 595-628, for a client with these handlers set. The invalidation of the caches is in the cache model. -/
def onNotification [Unit01 D] (strict hasProgress hasStatus : Bool) (registered : Bytes → Bool) (n : Notification D) : Called D :=
  if n.method = lit "notifications/progress" ∧ hasProgress ∧ n.params.isSome then
    match n.params with
    | some (.obj m) => match progressArgs strict m with | some (t, p, x) => .progress t p x | none => .nothing
    | _ => .nothing
  else if n.method = lit "notifications/cancelled" then
    match n.params with
    | some v => if idParam v = [] then .nothing else .cancel (idParam v)
    | none => .nothing
  else if n.method = lit "notifications/tasks/status" ∧ hasStatus ∧ n.params.isSome then
    match n.params with
    | some v => if strict && !validateTask v then .nothing else .taskStatus (parseTask v)
    | none => .nothing
  else if registered n.method then .handler n.method (n.params.getD .null)
  else .nothing

end Verif.Client
