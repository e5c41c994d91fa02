import Verif.Server.Registry
import Verif.Base.Order
import Verif.Task.Model
import Verif.Resource.ReadModel
import Verif.Client.TypedModel

/-!
The list handlers of the server (src/mcp/Server.cpp 668-807 and 1771-1836), the paged list calls of the client (src/mcp/Client.cpp
1521-1587, 1656-1723, 1795-1862, 1934-2001) and the list-all helpers (include/mcp/typed/ClientTyped.h 351-405).
The four handlers, the four paged calls and the four helpers are the same text up to the item type; each family is modelled once.
-/

namespace Verif.Server

open Items Validation Tasks Resource

variable {D H T : Type}

/-- `cursor` of `parsePagingParams`, 1776-1786. -/
def startOf : Option (JVal D) → Nat
  | some (.str c) => match stoll c with | some i => toSize i | none => 0
  | some (.int i) => toSize i
  | _ => 0

/-- `limit`, 1787-1793. -/
def limitOf : Option (JVal D) → Option Nat
  | some (.int i) => if i > 0 then some (toSize i) else none
  | _ => none

/-- `parsePagingParams`, 1771-1795. -/
def paging (params : Option (JVal D)) : Nat × Option Nat :=
  match params with
  | some (.obj m) => (startOf (AMap.get m (lit "cursor")), limitOf (AMap.get m (lit "limit")))
  | _ => (0, none)

/-- `start` after 682-684. -/
def clampStart (total start : Nat) : Nat := if start > total then total else start

/-- `end`, 685; `size_t` arithmetic. -/
def endOf (total start : Nat) : Option Nat → Nat
  | some l => min total ((start + l) % 2 ^ 64)
  | none => total

/-- `computeNextCursor`, 1797-1802. -/
def nextCursor (next total : Nat) (limit : Option Nat) : Option Bytes :=
  if limit.isSome && decide (next < total) then some (natDec next) else none

/-- The items with indices `start ≤ i < end`, 689-692. -/
def slice (l : List T) (start end_ : Nat) : List T := (l.take end_).drop start

/-- The result object, 687-697. -/
def pageJson (key : Bytes) (toJson : T → JVal D) (items : List T) (p : Nat × Option Nat) : JVal D :=
  let start := clampStart items.length p.1
  let end_ := endOf items.length start p.2
  .obj ([(key, .arr ((slice items start end_).map toJson))] ++ optField (lit "nextCursor") ((nextCursor end_ items.length p.2).map .str))

/-- `validateListResultStrict`, 1804-1836. -/
def strictListing (key : Bytes) (v : JVal D) : Bool :=
  match v with
  | .obj m =>
    (match AMap.get m key with | some (.arr _) => true | _ => false) &&
      (match AMap.get m (lit "nextCursor") with | none => true | some (.str _) => true | _ => false)
  | _ => false

/-- The common body of the list handlers. -/
def listReply (key : Bytes) (toJson : T → JVal D) (valid : JVal D → Bool) (msg : Bytes) (strict : Bool) (items : List T)
    (params : Option (JVal D)) : Reply D :=
  let v := pageJson key toJson items (paging params)
  if strict && (!valid v || !strictListing key v) then .fail Code.internalError msg else .ok v

/-- `handleToolsList`, 668-705. -/
def handleTools (s : Reg D H) (strict : Bool) (params : Option (JVal D)) : Reply D :=
  listReply (lit "tools") makeTool validateToolsList (lit "Invalid tools/list result shape") strict (sortBy (·.name) s.tools) params

/-- `handleResourcesList`, 707-737. -/
def handleResources (s : Reg D H) (ui strict : Bool) (params : Option (JVal D)) : Reply D :=
  listReply (lit "resources") makeResource validateResourcesList (lit "Invalid resources/list result shape") strict
    (sortBy (·.uri) (s.visible ui)) params

/-- `handleResourceTemplatesList`, 739-776. -/
def handleTemplates (s : Reg D H) (strict : Bool) (params : Option (JVal D)) : Reply D :=
  listReply (lit "resourceTemplates") makeTemplate validateTemplatesList (lit "Invalid resources/templates/list result shape") strict
    (sortBy (·.uriTemplate) s.templateList) params

/-- `handlePromptsList`, 778-807. -/
def handlePrompts (s : Reg D H) (strict : Bool) (params : Option (JVal D)) : Reply D :=
  listReply (lit "prompts") makePrompt validatePromptsList (lit "Invalid prompts/list result shape") strict (sortBy (·.name) s.prompts) params

/-! ### The client -/

open Client (Outcome)

/-- The items of a listing, Client.cpp 1560-1571: entries that are not objects are skipped. -/
def readItems (read : Obj D → T) : List (JVal D) → List T
  | [] => []
  | .obj m :: vs => read m :: readItems read vs
  | _ :: vs => readItems read vs

/-- `nextCursor`, 1572-1579. -/
def readCursor : Option (JVal D) → Option Bytes
  | some (.str c) => some c
  | some (.int i) => some (intDec i)
  | _ => none

/-- The parsed result, 1555-1580. -/
def readPage (key : Bytes) (read : Obj D → T) (v : JVal D) : List T × Option Bytes :=
  match v with
  | .obj m => (match AMap.get m key with | some (.arr l) => readItems read l | _ => [], readCursor (AMap.get m (lit "nextCursor")))
  | _ => ([], none)

/-- `coList*Paged`, 1533-1586; `none` is an exception. -/
def listPaged (key : Bytes) (read : Obj D → T) (valid : JVal D → Bool) (strict : Bool) (o : Outcome D) : Option (List T × Option Bytes) :=
  match o with
  | .threw => none
  | .nul => some ([], none)
  | .resp r =>
    match r.error, r.result with
    | none, some v => if strict && !valid v then none else some (readPage key read v)
    | _, _ => some ([], none)

/-- `listAll*`, ClientTyped.h 351-405: `ask` is the paged call. `none`: out of fuel; `some none`: an exception. -/
def listAll (ask : Option Bytes → Option (List T × Option Bytes)) : Nat → Option Bytes → List T → Option (Option (List T))
  | 0, _, _ => none
  | fuel + 1, cursor, all =>
    match ask cursor with
    | none => some none
    | some (items, none) => some (some (all ++ items))
    | some (items, some c) => listAll ask fuel (some c) (all ++ items)

/-- The server's reply as the client's transport hands it over. -/
def delivered (r : Reply D) : Outcome D := .resp (Reply.toResponse (.int 0) r)

end Verif.Server
