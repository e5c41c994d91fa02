import Verif.Resource.TemplateModel
import Verif.Validation.Model
import Verif.Rpc.Model
import Verif.Base.Num
import Verif.Task.Model

/-! Model of resource reads in the server: `buildReadResourceResultJson`, `handleResourcesRead` and `SetResourceReadChunkingMaxBytes`,
src/mcp/Server.cpp 356-457, 946-1019 and 3318-3338. -/

namespace Verif.Resource

open Validation Tasks

variable {D : Type}

/-- What the read depends on: `capabilities.experimental["resourceReadChunking"]`, whether the client has the UI extension, and the
validation mode. -/
structure ReadCfg (D : Type) where
  chunking : Option (JVal D)
  ui : Bool
  strict : Bool

/-- `metaCandidate`, 359-372. -/
def metaOf : List (JVal D) → Option (JVal D)
  | [] => none
  | v :: vs => match v.get? (lit "_meta") with | some m => some m | none => metaOf vs

/-- `flattenedText`, 381-398; `none` is the exception "Chunking requires text content". -/
def flatten : List (JVal D) → Option Bytes
  | [] => some []
  | v :: vs =>
    match v.strAt (lit "type"), v.strAt (lit "text") with
    | some t, some s => if t = lit "text" then (flatten vs).map (s ++ ·) else none
    | _, _ => none

/-- `clampBytes`, 407-420; 0 is "no clamp". -/
def clampBytes (chunking : Option (JVal D)) : Nat :=
  match chunking with
  | some v => match v.intAt (lit "maxChunkBytes") with | some i => if i > 0 then toSize i else 0 | none => 0
  | none => 0

/-- `take`, 402-423, when `rest` bytes are left. -/
def takeLen (clamp rest : Nat) (length : Option Int) : Nat :=
  let take0 := match length with | some l => toSize l | none => rest
  let take1 := min take0 rest
  if clamp > 0 ∧ take1 > clamp then clamp else take1

/-- The chunk, 400-429, for a range read. -/
def rangeContents (chunking : Option (JVal D)) (text : Bytes) (offset length : Option Int) : List (JVal D) :=
  let start := toSize (offset.getD 0)
  if start < text.length then
    [.obj [(lit "type", .str (lit "text")),
      (lit "text", .str ((text.drop start).take (takeLen (clampBytes chunking) (text.length - start) length)))]]
  else []

/-- The `_meta` member of the result, 433-449. -/
def metaField (ui : Bool) (meta_ : Option (JVal D)) : List (Bytes × JVal D) :=
  match meta_ with
  | none => []
  | some (.obj m) =>
    if ui then [(lit "_meta", .obj m)]
    else if (AMap.del m (lit "ui")).isEmpty then [] else [(lit "_meta", .obj (AMap.del m (lit "ui")))]
  | some v => [(lit "_meta", v)]

/-- `buildReadResourceResultJson`, 356-457; the error is the text of the exception. -/
def buildRead (cfg : ReadCfg D) (contents : List (JVal D)) (offset length : Option Int) : Except Bytes (JVal D) :=
  let items : Option (List (JVal D)) :=
    if offset.isNone && length.isNone then some contents
    else (flatten contents).map (fun text => rangeContents cfg.chunking text offset length)
  match items with
  | none => .error (lit "Chunking requires text content")
  | some items =>
    let v : JVal D := .obj ([(lit "contents", .arr items)] ++ metaField cfg.ui (metaOf contents))
    if cfg.strict && !validateReadResourceResult v then .error (lit "Invalid resource read result shape") else .ok v

/-- How a handler call ends: an exception with its text, or the contents. -/
abbrev Ran (D : Type) := Except Bytes (List (JVal D))

/-- The response made of the built result, 1009-1018. -/
def builtReply : Except Bytes (JVal D) → Reply D
  | .error e => .fail Code.internalError e
  | .ok v => .ok v

/-- `handleResourcesRead`, 946-1019. `cancelled` is the token when the handler has returned. A handler is represented by its outcome. -/
def handleRead (cfg : ReadCfg D) (handlers : List (Bytes × Option (Ran D))) (templates : List (Bytes × Option (Vars → Ran D)))
    (cancelled : Bool) (params : Option (JVal D)) : Reply D :=
  let p : JVal D := params.getD .null
  let uri := (p.strAt (lit "uri")).getD []
  let offset := p.intAt (lit "offset")
  let length := p.intAt (lit "length")
  if uri = [] then .fail Code.invalidParams (lit "Invalid params")
  else if ∃ o ∈ offset, o < 0 then .fail Code.invalidParams (lit "Invalid offset/length")
  else if ∃ l ∈ length, l ≤ 0 then .fail Code.invalidParams (lit "Invalid offset/length")
  else
    let finish (r : Ran D) : Reply D :=
      match r with
      | .error e => .fail Code.internalError e
      | .ok contents =>
        if cancelled then .fail Code.internalError (lit "Cancelled")
        else builtReply (buildRead cfg contents offset length)
    match choose handlers templates uri with
    | .ambiguous => .fail Code.internalError (lit "Ambiguous resource template match")
    | .notFound => .fail Code.resourceNotFound (lit "Resource not found")
    | .direct r => finish r
    | .template f vars => finish (f vars)
    | .badCall => .fail Code.internalError (lit "bad_function_call")

/-- `SetResourceReadChunkingMaxBytes`, 3318-3338, on the value of `experimental["resourceReadChunking"]`. -/
def setChunkMax (cur : Option (JVal D)) (n : Option Nat) : JVal D :=
  let m0 := match cur with | some (.obj m) => m | _ => []
  let m1 := AMap.put m0 (lit "enabled") (.bool true)
  match n with
  | some k => if k > 0 then .obj (AMap.put m1 (lit "maxChunkBytes") (.int (if k < 2 ^ 63 then k else (k : Int) - 2 ^ 64)))
      else .obj (AMap.del m1 (lit "maxChunkBytes"))
  | none => .obj (AMap.del m1 (lit "maxChunkBytes"))

/-- The default of the constructor, 1129-1135. -/
def defaultChunking : JVal D := .obj [(lit "enabled", .bool true), (lit "maxChunkBytes", .int 65536)]

/-- The response of the dispatcher for a reply. -/
def Reply.toResponse (id : RpcId) : Reply D → Response D
  | .ok v => ⟨id, some v, none⟩
  | .fail c m => ⟨id, none, some (mkErrorObj c m none)⟩

end Verif.Resource
