import Verif.Json.Access

/-!
Model of include/mcp/validation/Validators.h (JSON validators) and of the content builders and inspectors of
include/mcp/typed/Content.h. Null `shared_ptr`s inside JSON values are not modelled, so the tests for them always pass.
-/

namespace Verif.Validation

variable {D : Type}

abbrev Obj (D : Type) := List (Bytes × JVal D)

/-- Validators.h 23-26. -/
def isStringField (m : Obj D) (k : Bytes) : Bool :=
  match AMap.get m k with | some (.str _) => true | _ => false

/-- 28-31. -/
def isOptionalStringField (m : Obj D) (k : Bytes) : Bool :=
  match AMap.get m k with | none => true | some (.str _) => true | _ => false

/-- 33-36. -/
def isOptionalObjectField (m : Obj D) (k : Bytes) : Bool :=
  match AMap.get m k with | none => true | some (.obj _) => true | _ => false

/-- 38-41. -/
def isOptionalBoolField (m : Obj D) (k : Bytes) : Bool :=
  match AMap.get m k with | none => true | some (.bool _) => true | _ => false

/-- 43-46. -/
def isOptionalIntegerField (m : Obj D) (k : Bytes) : Bool :=
  match AMap.get m k with | none => true | some (.int _) => true | _ => false

/-- The recurring loops of the validators: a member that must be present and pass `f`, that must pass `f` if present, that must be an
array of values passing `f`, and the optional form of that. -/
def need (f : JVal D → Bool) (m : Obj D) (k : Bytes) : Bool :=
  match AMap.get m k with | some v => f v | none => false

def may (f : JVal D → Bool) (m : Obj D) (k : Bytes) : Bool :=
  match AMap.get m k with | some v => f v | none => true

def isArrOf (f : JVal D → Bool) (v : JVal D) : Bool :=
  match v with | .arr l => l.all f | _ => false

def isStr (v : JVal D) : Bool := match v with | .str _ => true | _ => false

/-- 48-59. -/
def isStringArray (v : JVal D) : Bool := isArrOf isStr v

/-- The icon theme, 80-87. -/
def isTheme (v : JVal D) : Bool :=
  match v with | .str t => decide (t = lit "light") || decide (t = lit "dark") | _ => false

/-- 61-89. -/
def isIconObject (v : JVal D) : Bool :=
  match v with
  | .obj m =>
    if !isStringField m (lit "src") then false
    else if !isOptionalStringField m (lit "mimeType") then false
    else if !may isStringArray m (lit "sizes") then false
    else may isTheme m (lit "theme")
  | _ => false

/-- 91-106. -/
def isOptionalIconsField (m : Obj D) (k : Bytes) : Bool :=
  may (isArrOf isIconObject) m k

/-- A priority, 128-134. -/
def isNum (v : JVal D) : Bool := match v with | .int _ => true | .dbl _ => true | _ => false

/-- 108-137. -/
def isAnnotationsShape (v : JVal D) : Bool :=
  match v with
  | .obj m =>
    if !may (isArrOf isStr) m (lit "audience") then false
    else may isNum m (lit "priority")
  | _ => false

/-- 139-142. -/
def isOptionalAnnotationsField (m : Obj D) (k : Bytes) : Bool :=
  may isAnnotationsShape m k

/-- 144-161. -/
def isEmbeddedResourceObject (v : JVal D) : Bool :=
  match v with
  | .obj m =>
    if !isStringField m (lit "uri") then false
    else if isStringField m (lit "text") = isStringField m (lit "blob") then false
    else isOptionalStringField m (lit "mimeType")
  | _ => false

/-- 163-203. -/
def isContentItem (v : JVal D) : Bool :=
  match v with
  | .obj m =>
    match AMap.get m (lit "type") with
    | some (.str ty) =>
      let body :=
        if ty = lit "text" then isStringField m (lit "text")
        else if ty = lit "image" ∨ ty = lit "audio" then isStringField m (lit "mimeType") && isStringField m (lit "data")
        else if ty = lit "resource_link" then
          isStringField m (lit "uri") && isStringField m (lit "name") && isOptionalStringField m (lit "title") &&
            isOptionalStringField m (lit "description") && isOptionalStringField m (lit "mimeType") && isOptionalIntegerField m (lit "size")
        else if ty = lit "resource" then
          need isEmbeddedResourceObject m (lit "resource")
        else false
      body && isOptionalAnnotationsField m (lit "annotations")
    | _ => false
  | _ => false

/-- 205-214. -/
def isTextContentItem (v : JVal D) : Bool :=
  isContentItem v && decide (v.strAt (lit "type") = some (lit "text"))

/-- 225-241. -/
def isPromptMessageItem (v : JVal D) : Bool :=
  if isContentItem v then true
  else match v with
    | .obj m => isStringField m (lit "role") && need isContentItem m (lit "content")
    | _ => false

/-- 244-278. -/
def validateCallToolResult (v : JVal D) : Bool :=
  match v with
  | .obj m =>
    need (isArrOf isContentItem) m (lit "content") && isOptionalBoolField m (lit "isError")
  | _ => false

/-- One item of a resource read result, 296-311. -/
def isReadItem (v : JVal D) : Bool :=
  match v with
  | .obj m =>
    isTextContentItem v ||
      (isStringField m (lit "uri") && (isStringField m (lit "text") != isStringField m (lit "blob")) && isOptionalStringField m (lit "mimeType"))
  | _ => false

/-- 280-318. -/
def validateReadResourceResult (v : JVal D) : Bool :=
  match v with
  | .obj m => need (isArrOf isReadItem) m (lit "contents")
  | _ => false

/-- 320-343. -/
def validateGetPromptResult (v : JVal D) : Bool :=
  match v with
  | .obj m =>
    isStringField m (lit "description") &&
      need (isArrOf isPromptMessageItem) m (lit "messages")
  | _ => false

/-- The `completion` member, 352-371. -/
def isCompletion (v : JVal D) : Bool :=
  match v with
  | .obj c =>
    need (isArrOf isStr) c (lit "values") && isOptionalIntegerField c (lit "total") && isOptionalBoolField c (lit "hasMore")
  | _ => false

/-- 345-372. -/
def validateCompletionResult (v : JVal D) : Bool :=
  match v with
  | .obj m => need isCompletion m (lit "completion")
  | _ => false

/-- 374-397. -/
def validateElicitationRequest (v : JVal D) : Bool :=
  match v with
  | .obj m =>
    isStringField m (lit "message") && (AMap.get m (lit "requestedSchema")).isSome && isOptionalStringField m (lit "title") &&
      isOptionalStringField m (lit "mode") && isOptionalStringField m (lit "url") && isOptionalStringField m (lit "elicitationId")
  | _ => false

def isAction (v : JVal D) : Bool :=
  match v with
  | .str a => decide (a = lit "accept") || decide (a = lit "decline") || decide (a = lit "cancel")
  | _ => false

/-- 399-421. -/
def validateElicitationResult (v : JVal D) : Bool :=
  match v with
  | .obj m => need isAction m (lit "action") && isOptionalStringField m (lit "elicitationId")
  | _ => false

/-- 423-425. -/
def validatePingResult (v : JVal D) : Bool := match v with | .obj _ => true | _ => false

/-- A task's ttl, 440-447. -/
def isTtl (v : JVal D) : Bool := match v with | .int _ => true | .null => true | _ => false

/-- 427-449. -/
def validateTask (v : JVal D) : Bool :=
  match v with
  | .obj m =>
    isStringField m (lit "taskId") && isStringField m (lit "status") && isStringField m (lit "createdAt") && isStringField m (lit "lastUpdatedAt") &&
      isOptionalStringField m (lit "statusMessage") && isOptionalIntegerField m (lit "pollInterval") &&
      may isTtl m (lit "ttl")
  | _ => false

/-- 451-465. -/
def validateCreateTaskResult (v : JVal D) : Bool :=
  match v with
  | .obj m => need validateTask m (lit "task")
  | _ => false

/-- 467-487. -/
def validateTasksListResult (v : JVal D) : Bool :=
  match v with
  | .obj m =>
    need (isArrOf validateTask) m (lit "tasks") && isOptionalStringField m (lit "nextCursor")
  | _ => false

/-- The cursor test shared by the four list validators, 520-524. -/
def isCursor (v : JVal D) : Bool := match v with | .str _ => true | .int _ => true | _ => false

/-- A tool of a listing, 505-518. -/
def isToolEntry (v : JVal D) : Bool :=
  match v with
  | .obj m =>
    isStringField m (lit "name") && isOptionalStringField m (lit "title") && isOptionalStringField m (lit "description") &&
      isOptionalAnnotationsField m (lit "annotations") && isOptionalIconsField m (lit "icons")
  | _ => false

/-- A resource of a listing, 539-551. -/
def isResourceEntry (v : JVal D) : Bool :=
  match v with
  | .obj m =>
    isStringField m (lit "uri") && isStringField m (lit "name") && isOptionalStringField m (lit "title") && isOptionalStringField m (lit "description") &&
      isOptionalStringField m (lit "mimeType") && isOptionalIntegerField m (lit "size") &&
      isOptionalAnnotationsField m (lit "annotations") && isOptionalIconsField m (lit "icons")
  | _ => false

/-- A template of a listing, 572-583. -/
def isTemplateEntry (v : JVal D) : Bool :=
  match v with
  | .obj m =>
    isStringField m (lit "uriTemplate") && isStringField m (lit "name") && isOptionalStringField m (lit "title") &&
      isOptionalStringField m (lit "description") && isOptionalStringField m (lit "mimeType") &&
      isOptionalAnnotationsField m (lit "annotations") && isOptionalIconsField m (lit "icons")
  | _ => false

/-- A prompt of a listing, 604-614. -/
def isPromptEntry (v : JVal D) : Bool :=
  match v with
  | .obj m =>
    isStringField m (lit "name") && isOptionalStringField m (lit "title") && isOptionalStringField m (lit "description") &&
      isOptionalIconsField m (lit "icons")
  | _ => false

/-- The common frame of the four list validators. -/
def validateListing (key : Bytes) (item : JVal D → Bool) (v : JVal D) : Bool :=
  match v with
  | .obj m => need (isArrOf item) m key && may isCursor m (lit "nextCursor")
  | _ => false

/-- 494-526, 528-559, 561-591, 593-622. -/
def validateToolsList (v : JVal D) : Bool := validateListing (lit "tools") isToolEntry v
def validateResourcesList (v : JVal D) : Bool := validateListing (lit "resources") isResourceEntry v
def validateTemplatesList (v : JVal D) : Bool := validateListing (lit "resourceTemplates") isTemplateEntry v
def validatePromptsList (v : JVal D) : Bool := validateListing (lit "prompts") isPromptEntry v

/-- A root of a listing, 635-641. -/
def isRootEntry (v : JVal D) : Bool :=
  match v with
  | .obj m => isStringField m (lit "uri") && isOptionalStringField m (lit "name")
  | _ => false

/-- 624-644. -/
def validateRootsList (v : JVal D) : Bool :=
  match v with
  | .obj m => need (isArrOf isRootEntry) m (lit "roots")
  | _ => false

/-- A content member that is one item or an array of items, 659-667 and 680-688. -/
def isContentOrArray (v : JVal D) : Bool :=
  match v with | .arr l => l.all isContentItem | v => isContentItem v

/-- A message of sampling parameters, 654-668. -/
def isSamplingMessage (v : JVal D) : Bool :=
  match v with
  | .obj m => may isContentOrArray m (lit "content")
  | _ => false

/-- 647-672. -/
def validateCreateMessageParams (v : JVal D) : Bool :=
  match v with
  | .obj m => need (isArrOf isSamplingMessage) m (lit "messages")
  | _ => false

/-- 674-691. -/
def validateCreateMessageResult (v : JVal D) : Bool :=
  match v with
  | .obj m =>
    isStringField m (lit "model") && isStringField m (lit "role") && need isContentOrArray m (lit "content")
  | _ => false

/-! ### Content builders and inspectors, typed/Content.h -/

/-- Content.h 20-25. -/
def makeText (text : Bytes) : JVal D := .obj [(lit "type", .str (lit "text")), (lit "text", .str text)]

/-- 27-33 and 35-41. -/
def makeImage (mime data : Bytes) : JVal D :=
  .obj [(lit "type", .str (lit "image")), (lit "mimeType", .str mime), (lit "data", .str data)]
def makeAudio (mime data : Bytes) : JVal D :=
  .obj [(lit "type", .str (lit "audio")), (lit "mimeType", .str mime), (lit "data", .str data)]

/-- 43-62. -/
def makeResourceLink (uri name : Bytes) (title description mime : Option Bytes) : JVal D :=
  .obj ([(lit "type", .str (lit "resource_link")), (lit "uri", .str uri), (lit "name", .str name)] ++
    optField (lit "title") (title.map .str) ++ optField (lit "description") (description.map .str) ++ optField (lit "mimeType") (mime.map .str))

/-- 64-78. -/
def makeEmbeddedText (uri text : Bytes) (mime : Option Bytes) : JVal D :=
  .obj [(lit "type", .str (lit "resource")),
    (lit "resource", .obj ([(lit "uri", .str uri), (lit "text", .str text)] ++ optField (lit "mimeType") (mime.map .str)))]

/-- 80-92. -/
def makeEmbeddedBlob (uri blob mime : Bytes) : JVal D :=
  .obj [(lit "type", .str (lit "resource")),
    (lit "resource", .obj [(lit "uri", .str uri), (lit "blob", .str blob), (lit "mimeType", .str mime)])]

/-- `getType`, 95-102. -/
def getType (v : JVal D) : Option Bytes := v.strAt (lit "type")

/-- `getText`, 129-136. -/
def getText (v : JVal D) : Option Bytes := if getType v = some (lit "text") then v.strAt (lit "text") else none

/-- `collectText` of an array and of a read result, 138-147 and 154-173. -/
def collectText (l : List (JVal D)) : List Bytes := l.filterMap getText
def collectReadText (l : List (JVal D)) : List Bytes := l.filterMap (fun v => (getText v).or (v.strAt (lit "text")))

end Verif.Validation
