import Verif.Json.Access

/-!
Capabilities and the initialize handshake: `serializeServerCapabilities` and `parseClientCapabilities` (src/mcp/Server.cpp 1188-1343),
`handleInitialize` (1345-1367), `serializeClientCapabilities` and `parseServerCapabilities` (src/mcp/Client.cpp 323-458), and the
parameters of `coInitialize` (1113-1131). Maps are association lists.
-/

namespace Verif.Caps

variable {D : Type}

abbrev Obj (D : Type) := List (Bytes × JVal D)

/-- `ServerTasksCapability`, include/mcp/Protocol.h 92-105. -/
structure ServerTasks where
  list : Bool
  cancel : Bool
  toolCall : Bool
  deriving DecidableEq

/-- `ClientTasksCapability`, Protocol.h 96-111. -/
structure ClientTasks where
  list : Bool
  cancel : Bool
  createMessage : Bool
  elicitationCreate : Bool
  deriving DecidableEq

/-- `ServerCapabilities`, Protocol.h 117-126. The empty capability structs are flags. -/
structure ServerCaps (D : Type) where
  /-- `listChanged`. -/
  tools : Option Bool
  /-- `subscribe` and `listChanged`. -/
  resources : Option (Bool × Bool)
  prompts : Option Bool
  sampling : Bool
  completions : Bool
  tasks : Option ServerTasks
  logging : Bool
  experimental : Obj D

/-- `ClientCapabilities`, Protocol.h 128-136. -/
structure ClientCaps (D : Type) where
  /-- `listChanged`. -/
  roots : Option Bool
  sampling : Bool
  /-- `modes`. -/
  elicitation : Option (List Bytes)
  tasks : Option ClientTasks
  experimental : Obj D
  extensions : Obj D

/-- Default-constructed values. -/
def ServerCaps.none_ : ServerCaps D := ⟨none, none, none, false, false, none, false, []⟩
def ClientCaps.none_ : ClientCaps D := ⟨none, false, none, none, [], []⟩

/-- A member with an empty object, present if `b`. -/
def flag (k : Bytes) (b : Bool) : Obj D := optField k (if b then some (.obj []) else none)

/-- A member holding `m`, left out when `m` is empty. -/
def nonEmpty (k : Bytes) (m : Obj D) : Obj D := optField k (if m.isEmpty then none else some (.obj m))

/-- Server.cpp 1219-1235. -/
def serServerTasks (t : ServerTasks) : JVal D :=
  .obj (flag (lit "list") t.list ++ flag (lit "cancel") t.cancel ++
    nonEmpty (lit "requests") (optField (lit "tools") (if t.toolCall then some (.obj [(lit "call", .obj [])]) else none)))

/-- `serializeServerCapabilities`, Server.cpp 1188-1256. -/
def serServer (c : ServerCaps D) : JVal D :=
  .obj (nonEmpty (lit "experimental") c.experimental ++
    optField (lit "prompts") (c.prompts.map (fun b => .obj [(lit "listChanged", .bool b)])) ++
    optField (lit "resources") (c.resources.map (fun p => .obj [(lit "subscribe", .bool p.1), (lit "listChanged", .bool p.2)])) ++
    optField (lit "tools") (c.tools.map (fun b => .obj [(lit "listChanged", .bool b)])) ++
    optField (lit "tasks") (c.tasks.map serServerTasks) ++
    flag (lit "sampling") c.sampling ++ flag (lit "completions") c.completions ++ flag (lit "logging") c.logging)

/-- Is the member present? (`find(k) != end()`) -/
def has (m : Obj D) (k : Bytes) : Bool := (AMap.get m k).isSome

/-- `requests.<a>.<b>` is present, `requests` and `<a>` being objects, e.g. Client.cpp 436-447, Server.cpp 1312-1327. -/
def requestFlag (m : Obj D) (a b : Bytes) : Bool :=
  match AMap.get m (lit "requests") with
  | some (.obj r) => match AMap.get r a with | some (.obj o) => has o b | _ => false
  | _ => false

/-- The tasks capability, Client.cpp 428-449. -/
def parseServerTasks : Option (JVal D) → Option ServerTasks
  | some (.obj m) => some ⟨has m (lit "list"), has m (lit "cancel"), requestFlag m (lit "tools") (lit "call")⟩
  | _ => none

/-- `parseServerCapabilities`, Client.cpp 384-458; `old` is the value before the call. -/
def parseServer (old : ServerCaps D) (result : JVal D) : ServerCaps D :=
  match result.objAt (lit "capabilities") with
  | none => old
  | some m =>
    { tools := if has m (lit "tools") then some true else none
      resources := if has m (lit "resources") then some (true, true) else none
      prompts := if has m (lit "prompts") then some true else none
      sampling := has m (lit "sampling")
      completions := has m (lit "completions")
      tasks := parseServerTasks (AMap.get m (lit "tasks"))
      logging := has m (lit "logging")
      experimental := match AMap.get m (lit "experimental") with | some (.obj e) => e | _ => [] }

/-- Client.cpp 351-373. -/
def serClientTasks (t : ClientTasks) : JVal D :=
  .obj (flag (lit "list") t.list ++ flag (lit "cancel") t.cancel ++
    nonEmpty (lit "requests")
      (optField (lit "sampling") (if t.createMessage then some (.obj [(lit "createMessage", .obj [])]) else none) ++
       optField (lit "elicitation") (if t.elicitationCreate then some (.obj [(lit "create", .obj [])]) else none)))

/-- `serializeClientCapabilities`, Client.cpp 323-382. `extensions` is not written. -/
def serClient (c : ClientCaps D) : JVal D :=
  .obj (nonEmpty (lit "experimental") c.experimental ++ flag (lit "sampling") c.sampling ++
    optField (lit "elicitation") (c.elicitation.map (fun l =>
      .obj (optField (lit "modes") (if l.isEmpty then none else some (.arr (l.map .str)))))) ++
    optField (lit "tasks") (c.tasks.map serClientTasks) ++
    optField (lit "roots") (c.roots.map (fun b => .obj [(lit "listChanged", .bool b)])))

/-- The string entries of an array, Server.cpp 1290-1296. -/
def strings : List (JVal D) → List Bytes
  | [] => []
  | .str s :: l => s :: strings l
  | _ :: l => strings l

/-- The elicitation capability, Server.cpp 1281-1301. -/
def parseElicitation : Option (JVal D) → Option (List Bytes)
  | none => none
  | some v => some (match v.arrAt (lit "modes") with | some l => strings l | none => [])

/-- The roots capability, Server.cpp 1268-1280. -/
def parseRoots : Option (JVal D) → Option Bool
  | none => none
  | some v => some ((v.boolAt (lit "listChanged")).getD false)

/-- The tasks capability, Server.cpp 1302-1329. -/
def parseClientTasks : Option (JVal D) → Option ClientTasks
  | some (.obj m) => some ⟨has m (lit "list"), has m (lit "cancel"), requestFlag m (lit "sampling") (lit "createMessage"),
      requestFlag m (lit "elicitation") (lit "create")⟩
  | _ => none

/-- `parseClientCapabilities`, Server.cpp 1258-1343; `experimental` is not read. -/
def parseClient (old : ClientCaps D) (params : JVal D) : ClientCaps D :=
  match params.objAt (lit "capabilities") with
  | none => old
  | some m =>
    { roots := parseRoots (AMap.get m (lit "roots"))
      sampling := has m (lit "sampling")
      elicitation := parseElicitation (AMap.get m (lit "elicitation"))
      tasks := parseClientTasks (AMap.get m (lit "tasks"))
      experimental := []
      extensions := match AMap.get m (lit "extensions") with | some (.obj e) => e | _ => [] }

/-- `PROTOCOL_VERSION`, Protocol.h 23. -/
def protocolVersion : Bytes := lit "2025-11-25"

/-- The result of `handleInitialize`, Server.cpp 1352-1361. -/
def initResult (name : Bytes) (c : ServerCaps D) : JVal D :=
  .obj [(lit "protocolVersion", .str protocolVersion), (lit "capabilities", serServer c),
    (lit "serverInfo", .obj [(lit "name", .str name), (lit "version", .str (lit "1.0.0"))])]

/-- The parameters of the initialize request, Client.cpp 1119-1127. -/
def initParams (name version : Bytes) (c : ClientCaps D) : JVal D :=
  .obj [(lit "protocolVersion", .str protocolVersion), (lit "capabilities", serClient c),
    (lit "clientInfo", .obj [(lit "name", .str name), (lit "version", .str version)])]

/-- Does the server think the client understands the UI extension? (Server.cpp 434-436 and 592-593) -/
def uiSupported (c : ClientCaps D) : Bool := has c.extensions (lit "io.modelcontextprotocol/ui")

/-- The defaults of the server constructor, Server.cpp 1120-1135. -/
def defaultServer : ServerCaps D :=
  { tools := some true, resources := some (true, true), prompts := some true, sampling := false, completions := false
    tasks := some ⟨true, true, true⟩, logging := true
    experimental := [(lit "resourceReadChunking", .obj [(lit "enabled", .bool true), (lit "maxChunkBytes", .int 65536)])] }

end Verif.Caps
