import Verif.Client.TypedModel
import Verif.Server.Dispatch

/-!
The calls of the client: the parameters they send and what they make of the answer (src/mcp/Client.cpp). `coComplete` (1149-1208),
`coPing` (1210-1229), `coCallToolTask` (1231-1257), `coGetTask` (1259-1279), `coListTasksPaged` (1288-1316), `coGetTaskResult`
(1318-1347), `coCancelTask` (1349-1372), `coCallTool` (1374-1398), `coGetPrompt` (2055-2080). How the awaited future ends is an
`Outcome`; the request and the answer are taken to arrive as they were sent.
-/

namespace Verif.Client

open Validation Errors Server Tasks

variable {D H : Type}

/-- The parameters of `coCallTool` and `coGetPrompt`, 1378-1380 and 2059-2061. -/
def callParams (name : Bytes) (args : JVal D) : JVal D := .obj [(lit "name", .str name), (lit "arguments", args)]

/-- `SerializeTaskMetadata`, src/mcp/TaskSupport.h 239-245. -/
def serMeta (ttl : Option Int) : JVal D := .obj (optField (lit "ttl") (ttl.map .int))

/-- The parameters of `coCallToolTask`, 1238-1241. -/
def taskCallParams (name : Bytes) (args : JVal D) (ttl : Option Int) : JVal D :=
  .obj [(lit "name", .str name), (lit "arguments", args), (lit "task", serMeta ttl)]

/-- The parameters of `coComplete`, 1154-1162. -/
def completeParams (a : CompleteArgs D) : JVal D :=
  .obj ([(lit "ref", a.ref), (lit "argument", .obj [(lit "name", .str a.name), (lit "value", .str a.value)])] ++
    optField (lit "context") a.context)

/-- The parameters of `coGetTask`, `coGetTaskResult`, `coCancelTask`. -/
def taskParams (id : Bytes) : JVal D := .obj [(lit "taskId", .str id)]

/-- A default-constructed `CompletionResult`. -/
def noCompletion : Completion := ⟨[], none, false⟩

/-- The reading of a completion result, 1172-1200. -/
def parseCompletion (v : JVal D) : Completion :=
  match v.objAt (lit "completion") with
  | some c =>
    ⟨(((JVal.obj c).arrAt (lit "values")).getD []).filterMap JVal.asStr, (JVal.obj c).intAt (lit "total"),
      ((JVal.obj c).boolAt (lit "hasMore")).getD false⟩
  | none => noCompletion

/-- `coComplete`, 1164-1207; `none` is an exception. -/
def complete (strict : Bool) : Outcome D → Option Completion
  | .threw => none
  | .nul => some noCompletion
  | .resp r =>
    match r.result with
    | none => some noCompletion
    | some v => if strict && !validateCompletionResult v then none else some (parseCompletion v)

/-- `errorMessageFromPayload`, 583-593. -/
def errorMessage (v : JVal D) : Bytes := (v.strAt (lit "message")).getD (lit "request failed")

/-- The common body of `coPing`, `coCallToolTask`, `coGetTask`, `coListTasksPaged` and `coCancelTask`: the exception text or the value.
`fallback` is the text when there is no error object, `bad` the text of a failed validation, `threw` that of the exception of the
transport. -/
def strictCall {T : Type} (strict : Bool) (valid : JVal D → Bool) (parse : JVal D → T) (fallback bad threw : Bytes) : Outcome D → Except Bytes T
  | .threw => .error threw
  | .nul => .error fallback
  | .resp r =>
    match r.error with
    | some e => .error (errorMessage e)
    | none =>
      match r.result with
      | none => .error fallback
      | some v => if strict && !valid v then .error bad else .ok (parse v)

/-- `coCallToolTask`, `coGetTask`, `coListTasksPaged`, `coCancelTask`. -/
def callToolTask (strict : Bool) (threw : Bytes) (o : Outcome D) : Except Bytes (Task × Option (JVal D)) :=
  strictCall strict validateCreateTaskResult parseCreate (lit "tools/call task request failed")
    (lit "Validation failed: tools/call task result shape") threw o
def getTask (strict : Bool) (threw : Bytes) (o : Outcome D) : Except Bytes Task :=
  strictCall strict validateTask parseTask (lit "tasks/get failed") (lit "Validation failed: tasks/get result shape") threw o
def listTasks (strict : Bool) (threw : Bytes) (o : Outcome D) : Except Bytes (List Task × Option Bytes) :=
  strictCall strict validateTasksListResult parseList (lit "tasks/list failed") (lit "Validation failed: tasks/list result shape") threw o
def cancelTask (strict : Bool) (threw : Bytes) (o : Outcome D) : Except Bytes Task :=
  strictCall strict validateTask parseTask (lit "tasks/cancel failed") (lit "Validation failed: tasks/cancel result shape") threw o

/-- `coPing`, 1210-1229; the texts of the exceptions are not kept. -/
def ping (strict : Bool) : Outcome D → Bool
  | .resp r =>
    match r.error, r.result with
    | none, some v => !strict || validatePingResult v
    | _, _ => false
  | _ => false

/-- `coGetTaskResult`, 1318-1347; `kind` is `outboundTaskKindFor(taskId)`, `none` an exception. -/
def taskResult (strict : Bool) (kind : Option Kind) : Outcome D → Option (JVal D)
  | .threw => none
  | .nul => some .null
  | .resp r =>
    match r.error with
    | some e => some e
    | none =>
      match r.result with
      | none => some .null
      | some v =>
        match kind with
        | some k => if strict && !validFor k v then none else some v
        | none => some v

end Verif.Client
