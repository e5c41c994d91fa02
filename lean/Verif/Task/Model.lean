import Verif.Base.Num
import Verif.Json.Access
import Verif.Rpc.Model

/-!
Model of task support (src/mcp/TaskSupport.h) and of the task methods of the server (src/mcp/Server.cpp 1572-1688).

Every store operation is one critical section under `mutex_`, hence one atomic step; the wall clock (`UtcNowIso8601`, 59-75) is an
argument. The stop source of a record is a flag. Callbacks run after the critical section and are a history (`emitted`).
-/

namespace Verif.Tasks

variable {D : Type}

/-- `struct Task`, include/mcp/Protocol.h 177-185. -/
structure Task where
  taskId : Bytes
  status : Bytes
  statusMessage : Option Bytes
  createdAt : Bytes
  lastUpdatedAt : Bytes
  ttl : Option Int
  pollInterval : Option Int
  deriving DecidableEq

/-- A default-constructed `Task`. -/
def Task.empty : Task := ⟨[], [], none, [], [], none, none⟩

/-- TaskSupport.h 46-51. -/
inductive Kind where
  | unknown | toolCall | createMessage | elicitation
  deriving DecidableEq

/-- TaskSupport.h 53-57. -/
def isTerminal (status : Bytes) : Bool :=
  status = lit "completed" || status = lit "failed" || status = lit "cancelled"

/-- `SerializeTask`, 119-138. -/
def serTask (t : Task) : JVal D :=
  .obj ([(lit "taskId", .str t.taskId), (lit "status", .str t.status), (lit "createdAt", .str t.createdAt),
      (lit "lastUpdatedAt", .str t.lastUpdatedAt)] ++
    optField (lit "statusMessage") (t.statusMessage.map .str) ++
    [(lit "ttl", match t.ttl with | some i => .int i | none => .null)] ++
    optField (lit "pollInterval") (t.pollInterval.map .int))

/-- `ParseTask`, 140-174. -/
def parseTask (v : JVal D) : Task :=
  match v with
  | .obj _ =>
    { taskId := (v.strAt (lit "taskId")).getD [], status := (v.strAt (lit "status")).getD [],
      statusMessage := v.strAt (lit "statusMessage"), createdAt := (v.strAt (lit "createdAt")).getD [],
      lastUpdatedAt := (v.strAt (lit "lastUpdatedAt")).getD [], ttl := v.intAt (lit "ttl"), pollInterval := v.intAt (lit "pollInterval") }
  | _ => .empty

/-- `CreateTaskResult` with its serialisation, 176-200. -/
def serCreate (t : Task) (meta_ : Option (JVal D)) : JVal D :=
  .obj ([(lit "task", serTask t)] ++ optField (lit "_meta") meta_)

def parseCreate (v : JVal D) : Task × Option (JVal D) :=
  match v with
  | .obj _ => (match v.get? (lit "task") with | some t => parseTask t | none => .empty, v.get? (lit "_meta"))
  | _ => (.empty, none)

/-- `TasksListResult`, serialisation and parsing, 202-237. -/
def serList (tasks : List Task) (next : Option Bytes) : JVal D :=
  .obj ([(lit "tasks", .arr (tasks.map serTask))] ++ optField (lit "nextCursor") (next.map .str))

def parseList (v : JVal D) : List Task × Option Bytes :=
  match v with
  | .obj _ => (((v.arrAt (lit "tasks")).getD []).map parseTask, v.strAt (lit "nextCursor"))
  | _ => ([], none)

/-- `TryParseTaskMetadata`, 247-262: is `params.task` an object, and its ttl. -/
def taskMeta (params : Option (JVal D)) : Option (Option Int) :=
  match params with
  | some p =>
    match p.objAt (lit "task") with
    | some m => some ((JVal.obj m).intAt (lit "ttl"))
    | none => none
  | none => none

/-- `TryParseTaskId`, 264-276. -/
def taskIdParam (params : Option (JVal D)) : Option Bytes := params.bind (·.strAt (lit "taskId"))

/-- A record of the store, 454-460. -/
structure Record (D : Type) where
  task : Task
  kind : Kind
  stopped : Bool
  isError : Bool
  payload : Option (JVal D)

/-- The store, 522-527. `emitted`: tasks passed to the status callback. -/
structure Store (D : Type) where
  records : List (Bytes × Record D)
  order : List Bytes
  nextId : Nat
  emitted : List Task

def Store.init : Store D := ⟨[], [], 1, []⟩

/-- `CreateTask`, 355-374. `nextId_` is a 64-bit counter. -/
def Store.create (s : Store D) (kind : Kind) (ttl : Option Int) (now : Bytes) : Task × Store D :=
  let t : Task := ⟨lit "task-" ++ natDec s.nextId, lit "working", none, now, now, ttl, some 100⟩
  (t, { records := AMap.put s.records t.taskId ⟨t, kind, false, false, none⟩
        order := s.order ++ [t.taskId]
        nextId := (s.nextId + 1) % 2 ^ 64
        emitted := s.emitted ++ [t] })

/-- `GetTask`, 385-392. -/
def Store.getTask (s : Store D) (id : Bytes) : Option Task := (AMap.get s.records id).map (·.task)

/-- `SetTerminal`, 462-508: success flag, `taskOut`, new store. -/
def Store.setTerminal (s : Store D) (id status : Bytes) (msg : Option Bytes) (isError : Bool) (payload : JVal D)
    (requestStop : Bool) (now : Bytes) : Bool × Option Task × Store D :=
  match AMap.get s.records id with
  | none => (false, none, s)
  | some r =>
    if r.payload.isSome || isTerminal r.task.status then (false, some r.task, s)
    else
      let t : Task := { r.task with status := status, statusMessage := msg, lastUpdatedAt := now }
      (true, some t,
       { s with records := AMap.put s.records id ⟨t, r.kind, r.stopped || requestStop, isError, some payload⟩
                emitted := s.emitted ++ [t] })

/-- `CompleteTask`, 424-431; `CancelTask`, 433-435. -/
def Store.complete (s : Store D) (id status : Bytes) (msg : Option Bytes) (isError : Bool) (payload : JVal D) (now : Bytes) :
    Bool × Option Task × Store D :=
  s.setTerminal id status msg isError payload false now

def Store.cancel (s : Store D) (id : Bytes) (payload : JVal D) (now : Bytes) : Bool × Option Task × Store D :=
  s.setTerminal id (lit "cancelled") (some (lit "Cancelled")) true payload true now

/-- `WaitForTerminalPayload`, 437-451. -/
inductive Waited (D : Type) where
  | unknown
  | blocked
  | got (isError : Bool) (payload : JVal D)

def Store.wait (s : Store D) (id : Bytes) : Waited D :=
  match AMap.get s.records id with
  | none => .unknown
  | some r =>
    match r.payload with
    | none => .blocked
    | some p => .got r.isError p

/-- `end` of `ListTasks`, 409. Index arithmetic is `size_t`. -/
def pageEnd (len start : Nat) : Option Nat → Nat
  | some l => min len ((start + l) % 2 ^ 64)
  | none => len

/-- `ListTasks`, 403-422. -/
def Store.list (s : Store D) (start : Nat) (limit : Option Nat) : List Task × Option Bytes :=
  if start ≥ s.order.length then ([], none)
  else
    let end_ := pageEnd s.order.length start limit
    let ids := (s.order.take end_).drop start
    (ids.filterMap (fun id => (AMap.get s.records id).map (·.task)),
     if limit.isSome && decide (end_ < s.order.length) then some (natDec end_) else none)

/-- Store operations. -/
inductive SOp (D : Type) where
  | create (kind : Kind) (ttl : Option Int) (now : Bytes)
  | complete (id status : Bytes) (msg : Option Bytes) (isError : Bool) (payload : JVal D) (now : Bytes)
  | cancel (id : Bytes) (payload : JVal D) (now : Bytes)

def Store.step (s : Store D) : SOp D → Store D
  | .create k ttl now => (s.create k ttl now).2
  | .complete id st msg e p now => (s.complete id st msg e p now).2.2
  | .cancel id p now => (s.cancel id p now).2.2

def Store.run (s : Store D) (ops : List (SOp D)) : Store D := ops.foldl Store.step s

/-! ### The task methods of the server -/

/-- Outcome of a request handler of the server: a result, or an error with code and message. -/
inductive Reply (D : Type) where
  | ok (v : JVal D)
  | fail (code : Int) (msg : Bytes)

/-- The paging parameters of `tasks/list`, Server.cpp 1595-1621: start and limit, or the error message. -/
def listParams (params : Option (JVal D)) : Except Bytes (Nat × Option Nat) :=
  match params with
  | some (.obj m) =>
    let start : Except Bytes Nat :=
      match AMap.get m (lit "cursor") with
      | none => .ok 0
      | some (.str c) => match stoll c with | some i => .ok (toSize i) | none => .error (lit "Invalid cursor")
      | some _ => .error (lit "Invalid cursor")
    let limit : Except Bytes (Option Nat) :=
      match AMap.get m (lit "limit") with
      | none => .ok none
      | some (.int i) => if i ≤ 0 then .error (lit "Invalid limit") else .ok (some (toSize i))
      | some _ => .error (lit "Invalid limit")
    match start with
    | .error e => .error e
    | .ok st => match limit with | .error e => .error e | .ok l => .ok (st, l)
  | _ => .ok (0, none)

/-- `tasks/list`, Server.cpp 1594-1632 without strict validation. -/
def handleList (s : Store D) (params : Option (JVal D)) : Reply D :=
  match listParams params with
  | .error e => .fail Code.invalidParams e
  | .ok (st, l) => .ok (serList (s.list st l).1 (s.list st l).2)

/-- `tasks/get`, Server.cpp 1572-1593 without strict validation. -/
def handleGet (s : Store D) (params : Option (JVal D)) : Reply D :=
  match taskIdParam params with
  | none => .fail Code.invalidParams (lit "Invalid taskId")
  | some id =>
    match s.getTask id with
    | none => .fail Code.invalidParams (lit "Unknown task")
    | some t => .ok (serTask t)

/-- `tasks/cancel`, Server.cpp 1663-1688 without strict validation; `allowed` is `capabilities.tasks->cancel`. -/
def handleCancel (s : Store D) (allowed : Bool) (params : Option (JVal D)) (now : Bytes) : Reply D × Store D :=
  if allowed then
    match taskIdParam params with
    | none => (.fail Code.invalidParams (lit "Invalid taskId"), s)
    | some id =>
      match s.cancel id (mkErrorObj Code.internalError (lit "Cancelled") none) now with
      | (true, some t, s') => (.ok (serTask t), s')
      | (_, _, s') => (.fail Code.invalidParams (lit "Task is not cancellable"), s')
  else (.fail Code.methodNotAllowed (lit "Task cancellation not supported"), s)

/-- The parameters `Client::ListTasksPaged` sends, Client.cpp 1289-1305 (`limit` is an `int`). -/
def listRequest (cursor : Option Bytes) (limit : Option Int) : Option (JVal D) :=
  let m := optField (lit "cursor") (cursor.map .str) ++
    optField (lit "limit") (match limit with | some l => if l > 0 then some (.int l) else none | none => none)
  if m.isEmpty then none else some (.obj m)

end Verif.Tasks
