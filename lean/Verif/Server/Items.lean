import Verif.Json.Access
import Verif.Validation.Model

/-!
Listed items: icons (src/mcp/MetadataSupport.h), and tools, resources, resource templates and prompts as the server writes them into
listings (`make*Obj`, src/mcp/Server.cpp 493-586) and as the client reads them (`Populate*FromListItem`, src/mcp/Client.cpp 31-175).
Null `shared_ptr`s inside JSON values are not modelled, so the tests for them always pass.
-/

namespace Verif.Items

open Validation (Obj)

variable {D : Type}

/-- `struct Icon`, include/mcp/Protocol.h 42-58. -/
structure Icon where
  src : Bytes
  mimeType : Option Bytes
  sizes : Option (List Bytes)
  theme : Option Bytes
  deriving DecidableEq

/-- `IsSupportedIconTheme`, MetadataSupport.h 18-20. -/
def supportedTheme (t : Bytes) : Bool := t = lit "light" || t = lit "dark"

/-- `SerializeIconObject`, 22-39. -/
def serIcon (i : Icon) : JVal D :=
  .obj ([(lit "src", .str i.src)] ++ optField (lit "mimeType") (i.mimeType.map .str) ++
    optField (lit "sizes") (i.sizes.map (fun l => .arr (l.map .str))) ++ optField (lit "theme") (i.theme.map .str))

/-- `AddOptionalIconsField`, 41-55: the member `icons`. -/
def iconsField (o : Option (List Icon)) : Obj D := optField (lit "icons") (o.map (fun l => .arr (l.map serIcon)))

/-- An optional string member that must be a string if present: `none` is `return std::nullopt`. -/
def strictStr (m : Obj D) (k : Bytes) : Option (Option Bytes) :=
  match AMap.get m k with
  | none => some none
  | some (.str s) => some (some s)
  | some _ => none

/-- The loop over `sizes`, 84-90. -/
def allStrs : List (JVal D) → Option (List Bytes)
  | [] => some []
  | .str s :: vs => (allStrs vs).map (s :: ·)
  | _ :: _ => none

/-- `sizes`, 76-92. -/
def strictSizes (m : Obj D) : Option (Option (List Bytes)) :=
  match AMap.get m (lit "sizes") with
  | none => some none
  | some (.arr l) => (allStrs l).map some
  | some _ => none

/-- `theme`, 94-105. -/
def strictTheme (m : Obj D) : Option (Option Bytes) :=
  match AMap.get m (lit "theme") with
  | none => some none
  | some (.str t) => if supportedTheme t then some (some t) else none
  | some _ => none

/-- `ParseIconObject`, 57-108. -/
def parseIcon (m : Obj D) : Option Icon :=
  match AMap.get m (lit "src") with
  | some (.str src) =>
    match strictStr m (lit "mimeType") with
    | none => none
    | some mime =>
      match strictSizes m with
      | none => none
      | some sizes =>
        match strictTheme m with
        | none => none
        | some theme => some ⟨src, mime, sizes, theme⟩
  | _ => none

/-- The loop of `ParseIconsField`, 123-134. -/
def parseIconList : List (JVal D) → Option (List Icon)
  | [] => some []
  | .obj m :: vs =>
    match parseIcon m with
    | none => none
    | some i => (parseIconList vs).map (i :: ·)
  | _ :: _ => none

/-- `ParseIconsField(item, "icons")`, 110-136. -/
def parseIcons (m : Obj D) : Option (List Icon) :=
  match AMap.get m (lit "icons") with
  | some (.arr l) => parseIconList l
  | _ => none

/-- `struct Tool`, Protocol.h 140-150. -/
structure Tool (D : Type) where
  name : Bytes
  title : Option Bytes
  description : Bytes
  icons : Option (List Icon)
  inputSchema : JVal D
  outputSchema : Option (JVal D)
  annotations : Option (JVal D)
  execution : Option (JVal D)
  meta_ : Option (JVal D)

/-- `struct Resource`, Protocol.h 219-228. -/
structure Resource (D : Type) where
  uri : Bytes
  name : Bytes
  title : Option Bytes
  description : Option Bytes
  mimeType : Option Bytes
  size : Option Int
  annotations : Option (JVal D)
  meta_ : Option (JVal D)
  icons : Option (List Icon)

/-- `struct ResourceTemplate`, Protocol.h 250-258. -/
structure Template (D : Type) where
  uriTemplate : Bytes
  name : Bytes
  title : Option Bytes
  description : Option Bytes
  mimeType : Option Bytes
  annotations : Option (JVal D)
  meta_ : Option (JVal D)
  icons : Option (List Icon)

/-- `struct Prompt`, Protocol.h 305-311. -/
structure Prompt (D : Type) where
  name : Bytes
  title : Option Bytes
  description : Bytes
  arguments : Option (JVal D)
  meta_ : Option (JVal D)
  icons : Option (List Icon)

/-- A string written only when it is not empty. -/
def nonEmpty (s : Bytes) : Option Bytes := if s = [] then none else some s

/-- `makeToolObj`, Server.cpp 493-518. -/
def makeTool (t : Tool D) : JVal D :=
  .obj ([(lit "name", .str t.name)] ++ optField (lit "title") (t.title.map .str) ++
    optField (lit "description") ((nonEmpty t.description).map .str) ++ iconsField t.icons ++
    [(lit "inputSchema", t.inputSchema)] ++ optField (lit "outputSchema") t.outputSchema ++ optField (lit "annotations") t.annotations ++
    optField (lit "execution") t.execution ++ optField (lit "_meta") t.meta_)

/-- `makeResourceObj`, 520-545. -/
def makeResource (r : Resource D) : JVal D :=
  .obj ([(lit "uri", .str r.uri), (lit "name", .str r.name)] ++ optField (lit "title") (r.title.map .str) ++
    optField (lit "description") (r.description.map .str) ++ optField (lit "mimeType") (r.mimeType.map .str) ++
    optField (lit "size") (r.size.map .int) ++ optField (lit "annotations") r.annotations ++ optField (lit "_meta") r.meta_ ++
    iconsField r.icons)

/-- `makeResourceTemplateObj`, 547-567. -/
def makeTemplate (t : Template D) : JVal D :=
  .obj ([(lit "uriTemplate", .str t.uriTemplate), (lit "name", .str t.name)] ++ optField (lit "title") (t.title.map .str) ++
    optField (lit "description") (t.description.map .str) ++ optField (lit "mimeType") (t.mimeType.map .str) ++
    optField (lit "annotations") t.annotations ++ optField (lit "_meta") t.meta_ ++ iconsField t.icons)

/-- `makePromptObj`, 569-586. -/
def makePrompt (p : Prompt D) : JVal D :=
  .obj ([(lit "name", .str p.name)] ++ optField (lit "title") (p.title.map .str) ++
    optField (lit "description") ((nonEmpty p.description).map .str) ++ optField (lit "arguments") p.arguments ++
    optField (lit "_meta") p.meta_ ++ iconsField p.icons)

/-- `PopulateToolFromListItem` on a default-constructed `Tool`, Client.cpp 31-71. A default-constructed `JSONValue` is null. -/
def readTool (m : Obj D) : Tool D :=
  let v : JVal D := .obj m
  { name := (v.strAt (lit "name")).getD [], title := v.strAt (lit "title"), description := (v.strAt (lit "description")).getD []
    icons := parseIcons m, inputSchema := (AMap.get m (lit "inputSchema")).getD .null, outputSchema := AMap.get m (lit "outputSchema")
    annotations := AMap.get m (lit "annotations"), execution := AMap.get m (lit "execution"), meta_ := AMap.get m (lit "_meta") }

/-- `PopulateResourceFromListItem`, 73-114. -/
def readResourceItem (m : Obj D) : Resource D :=
  let v : JVal D := .obj m
  { uri := (v.strAt (lit "uri")).getD [], name := (v.strAt (lit "name")).getD [], title := v.strAt (lit "title")
    description := v.strAt (lit "description"), mimeType := v.strAt (lit "mimeType"), size := v.intAt (lit "size")
    annotations := AMap.get m (lit "annotations"), meta_ := AMap.get m (lit "_meta"), icons := parseIcons m }

/-- `PopulateResourceTemplateFromListItem`, 116-152. -/
def readTemplate (m : Obj D) : Template D :=
  let v : JVal D := .obj m
  { uriTemplate := (v.strAt (lit "uriTemplate")).getD [], name := (v.strAt (lit "name")).getD [], title := v.strAt (lit "title")
    description := v.strAt (lit "description"), mimeType := v.strAt (lit "mimeType")
    annotations := AMap.get m (lit "annotations"), meta_ := AMap.get m (lit "_meta"), icons := parseIcons m }

/-- `PopulatePromptFromListItem`, 154-175 ff. -/
def readPrompt (m : Obj D) : Prompt D :=
  let v : JVal D := .obj m
  { name := (v.strAt (lit "name")).getD [], title := v.strAt (lit "title"), description := (v.strAt (lit "description")).getD []
    arguments := AMap.get m (lit "arguments"), meta_ := AMap.get m (lit "_meta"), icons := parseIcons m }

end Verif.Items
