import Verif.Json.Model
import Verif.Json.DecEq

/-!
Model of the JSON-RPC envelope: `Serialize`/`Deserialize` of requests, responses and notifications
(`/repo/src/mcp/JSONParser.cpp:305-607`) and the message router (`/repo/src/mcp/JsonRpcMessageRouter.cpp`).
-/

namespace Verif

/-- `JSONRPCId = std::variant<std::string, int64_t, std::nullptr_t>` (`include/mcp/JSONRPCTypes.h:73`). -/
inductive RpcId where
  | str (s : Bytes)
  | int (i : Int)
  | null
  deriving DecidableEq

/-- `JSONRPCRequest` (`JSONRPCTypes.h:102-114`). The `jsonrpc` member is always "2.0" and not modelled. -/
structure Request (D : Type) where
  id : RpcId
  method : Bytes
  params : Option (JVal D)
  deriving DecidableEq

/-- `JSONRPCResponse` (`JSONRPCTypes.h:127-143`). -/
structure Response (D : Type) where
  id : RpcId
  result : Option (JVal D)
  error : Option (JVal D)
  deriving DecidableEq

/-- `JSONRPCNotification` (`JSONRPCTypes.h:154-165`). -/
structure Notification (D : Type) where
  method : Bytes
  params : Option (JVal D)
  deriving DecidableEq

/-! Error codes, `JSONRPCTypes.h:174-187`. -/
namespace Code
def parseError : Int := -32700
def invalidRequest : Int := -32600
def methodNotFound : Int := -32601
def invalidParams : Int := -32602
def internalError : Int := -32603
def invalidRequestId : Int := -32000
def methodNotAllowed : Int := -32001
def resourceNotFound : Int := -32002
def toolNotFound : Int := -32003
def promptNotFound : Int := -32004
end Code

section serialize
variable {D : Type} [DblFmt D]

/-- The id as written by all `Serialize` functions: strings are written raw between quotes
(JSONParser.cpp:312-321 and 398-407). -/
def serId : RpcId → Bytes
  | .str s => '"' :: (s ++ ['"'])
  | .int i => intDec i
  | .null => lit "null"

/-- `JSONRPCRequest::Serialize`, JSONParser.cpp:305-331. The method is written raw (line 323). -/
def serRequest (r : Request D) : Bytes :=
  lit "{\"jsonrpc\":\"2.0\",\"id\":" ++ serId r.id ++ lit ",\"method\":\"" ++ r.method ++ lit "\"" ++
    (match r.params with
     | some p => lit ",\"params\":" ++ ser p
     | none => []) ++ lit "}"

/-- `JSONRPCResponse::Serialize`, JSONParser.cpp:391-419. -/
def serResponse (r : Response D) : Bytes :=
  lit "{\"jsonrpc\":\"2.0\",\"id\":" ++ serId r.id ++
    (match r.result with
     | some v => lit ",\"result\":" ++ ser v
     | none => []) ++
    (match r.error with
     | some v => lit ",\"error\":" ++ ser v
     | none => []) ++ lit "}"

/-- `JSONRPCNotification::Serialize`, JSONParser.cpp:538-550. -/
def serNotification (r : Notification D) : Bytes :=
  lit "{\"jsonrpc\":\"2.0\",\"method\":\"" ++ r.method ++ lit "\"" ++
    (match r.params with
     | some p => lit ",\"params\":" ++ ser p
     | none => []) ++ lit "}"

end serialize

section deserialize
variable {D : Type} [DblFmt D]

/-- The searched text `"key":`. -/
def keyPat (k : Bytes) : Bytes := '"' :: (k ++ ['"', ':'])

/-- `json.find("\"key\":")`: the text after the first occurrence (JSONParser.cpp:337, 347, 373, ...). -/
def afterKey (k : Bytes) (json : Bytes) : Option Bytes := (splitSub (keyPat k) json).map Prod.snd

/-- Method extraction, JSONParser.cpp:337-344 and 556-563. When no quote follows the key, `find` returns `npos`,
`npos + 1` is 0 and the method becomes the text before the first quote of the whole message. -/
def getMethod (json : Bytes) : Bytes :=
  match afterKey (lit "method") json with
  | none => []
  | some rest =>
    let start := match splitCh '"' rest with
      | some (_, r) => r
      | none => json
    match splitCh '"' start with
    | some (m, _) => m
    | none => []

/-- Run of digits and minus signs, JSONParser.cpp:360, 438, 496. -/
def takeIntRun : Bytes → Bytes
  | [] => []
  | c :: cs => if c = '-' || isDig c then c :: takeIntRun cs else []

/-- `std::stoll` on a run of digits and minus signs: parses the longest prefix sign? digits+. -/
def stollRun (run : Bytes) : Option Int :=
  let sg := takeSign run
  stollSigned sg.1 (takeDigits sg.2).1

/-- Id extraction, JSONParser.cpp:347-370 and 425-448. A default constructed id is the empty string. -/
def getId (json : Bytes) : RpcId :=
  match afterKey (lit "id") json with
  | none => .str []
  | some rest =>
    match skipWs rest with
    | [] => .str []
    | c :: cs =>
      if c = '"' then
        match splitCh '"' cs with
        | some (s, _) => .str s
        | none => .str []
      else if c = '-' || isDig c then
        match stollRun (takeIntRun (c :: cs)) with
        | some i => .int i
        | none => .null
      else if (lit "null").isPrefixOf (c :: cs) then .null
      else .str []

/-- Params extraction, JSONParser.cpp:373-381 and 566-574; outer `none` = the parser threw. -/
def getParams (json : Bytes) : Option (Option (JVal D)) :=
  match afterKey (lit "params") json with
  | none => some none
  | some rest =>
    match skipWs rest with
    | [] => some none
    | c :: cs =>
      match parseJson (D := D) (c :: cs) with
      | .ok v _ => some (some v)
      | _ => none

/-- `JSONRPCRequest::Deserialize` on a fresh object, JSONParser.cpp:333-388; `none` = returned false. -/
def deRequest (json : Bytes) : Option (Request D) :=
  match getParams (D := D) json with
  | none => none
  | some p => if getMethod json = [] then none else some ⟨getId json, getMethod json, p⟩

/-- `JSONRPCNotification::Deserialize` on a fresh object, JSONParser.cpp:552-581. -/
def deNotification (json : Bytes) : Option (Notification D) :=
  match getParams (D := D) json with
  | none => none
  | some p => if getMethod json = [] then none else some ⟨getMethod json, p⟩

/-- Result extraction with the placeholder fallback, JSONParser.cpp:451-474. -/
def getResult (json : Bytes) : Option (JVal D) :=
  match afterKey (lit "result") json with
  | none => none
  | some rest =>
    match skipWs rest with
    | [] => none
    | c :: cs =>
      match parseJson (D := D) (c :: cs) with
      | .ok v _ => some v
      | _ =>
        if c = '{' then some (.obj [])
        else if c = '[' then some (.arr [])
        else if c = '"' then some (.str [])
        else some .null

/-- `CreateErrorObject`, JSONParser.cpp:584-596. Member order is the insertion order here. -/
def mkErrorObj (code : Int) (msg : Bytes) (data : Option (JVal D)) : JVal D :=
  .obj ([(lit "code", .int code), (lit "message", .str msg)] ++
    (match data with | some d => [(lit "data", d)] | none => []))

/-- Code recovered from a malformed error payload, JSONParser.cpp:489-505. -/
def fallbackCode (txt : Bytes) : Option Int :=
  match splitSub (lit "\"code\"") txt with
  | none => none
  | some (_, r) =>
    match splitCh ':' r with
    | none => none
    | some (_, r) =>
      match skipWs r with
      | [] => none
      | c :: cs => stollRun (takeIntRun (c :: cs))

/-- Message recovered from a malformed error payload, JSONParser.cpp:507-519. -/
def fallbackMsg (txt : Bytes) : Option Bytes :=
  match splitSub (lit "\"message\"") txt with
  | none => none
  | some (_, r) =>
    match splitCh ':' r with
    | none => none
    | some (_, r) =>
      match splitCh '"' r with
      | none => none
      | some (_, r) =>
        match splitCh '"' r with
        | none => none
        | some (m, _) => some m

/-- Synthesised error object, JSONParser.cpp:487-525. -/
def fallbackError (txt : Bytes) : JVal D :=
  let fields := (match fallbackCode txt with | some c => [(lit "code", JVal.int c)] | none => []) ++
    (match fallbackMsg txt with | some m => [(lit "message", JVal.str m)] | none => [])
  if fields.isEmpty then mkErrorObj Code.internalError (lit "Malformed error payload") none else .obj fields

/-- Error extraction, JSONParser.cpp:477-528. -/
def getError (json : Bytes) : Option (JVal D) :=
  match afterKey (lit "error") json with
  | none => none
  | some rest =>
    match skipWs rest with
    | [] => none
    | c :: cs =>
      match parseJson (D := D) (c :: cs) with
      | .ok v _ => some v
      | _ => some (fallbackError (c :: cs))

/-- `JSONRPCResponse::Deserialize` on a fresh object, JSONParser.cpp:421-535. It always returns true: every
exception inside is caught locally. -/
def deResponse (json : Bytes) : Response D := ⟨getId json, getResult json, getError json⟩

end deserialize

section router

/-- The inner loop reading a quoted text, JsonRpcMessageRouter.cpp:49-65: characters after a backslash (and the
backslash) are dropped from the collected text. -/
def scanStr : Bytes → Bytes × Bytes
  | [] => ([], [])
  | c :: cs =>
    if c = '\\' then
      match cs with
      | [] => ([], [])
      | _ :: r => scanStr r
    else if c = '"' then ([], cs)
    else (c :: (scanStr cs).1, (scanStr cs).2)

theorem scanStr_length (s : Bytes) : (scanStr s).2.length ≤ s.length := by
  fun_induction scanStr s <;> simp_all <;> omega

theorem skipWs_length (s : Bytes) : (skipWs s).length ≤ s.length := by
  induction s with
  | nil => simp [skipWs]
  | cons c cs ih => unfold skipWs; split <;> simp <;> omega

/-- Whitespace and an optional colon after a quoted text, JsonRpcMessageRouter.cpp:66-70: was there a colon, and
what follows. -/
def afterColon (s : Bytes) : Bool × Bytes :=
  match skipWs s with
  | ':' :: r => (true, r)
  | r => (false, r)

theorem afterColon_length (s : Bytes) : (afterColon s).2.length ≤ s.length := by
  have := skipWs_length s
  unfold afterColon
  split
  · next h => rw [h] at this; simp at this ⊢; omega
  · exact this

/-- The main loop, JsonRpcMessageRouter.cpp:32-93, at nesting `depth` (only braces count). The `inStr` branch
(34-47) is dead: `inStr` is never set. -/
def scanTop (key : Bytes) (depth : Nat) : Bytes → Bool
  | [] => false
  | c :: cs =>
    if c = '"' then
      let p := scanStr cs
      let q := afterColon p.2
      if q.1 = true ∧ depth = 1 ∧ p.1 = key then true else scanTop key depth q.2
    else if c = '{' then scanTop key (depth + 1) cs
    else if c = '}' then (if depth - 1 = 0 then false else scanTop key (depth - 1) cs)
    else scanTop key depth cs
  termination_by s => s.length
  decreasing_by
    all_goals simp_wf
    have h1 := scanStr_length cs
    have h2 := afterColon_length (scanStr cs).2
    omega

/-- `hasTopLevelKey`, JsonRpcMessageRouter.cpp:19-94. -/
def hasTopLevelKey (s key : Bytes) : Bool :=
  match skipWs s with
  | '{' :: cs => scanTop key 1 cs
  | _ => false

/-- `MessageKind` (`include/mcp/JsonRpcMessageRouter.h`). -/
inductive MsgKind where
  | request | response | notification | unknown
  deriving DecidableEq

/-- Does `pat` occur in `s`? (`s.find(pat) != npos`) -/
def containsSub (pat s : Bytes) : Bool := (splitSub pat s).isSome

/-- `classify`, JsonRpcMessageRouter.cpp:98-109. -/
def classify (json : Bytes) : MsgKind :=
  if hasTopLevelKey json (lit "result") || hasTopLevelKey json (lit "error") then .response
  else if containsSub (lit "\"method\"") json then
    (if hasTopLevelKey json (lit "id") then .request else .notification)
  else .unknown

variable {D : Type} [DblFmt D]

/-- What a request handler did: returned a response, returned null, or threw `e.what()`. -/
inductive HandlerOutcome (D : Type) where
  | resp (r : Response D)
  | nul
  | threw (msg : Bytes)

/-- Installed handlers (`RouterHandlers`); a handler is a function of the message, outcomes as above. -/
structure Handlers (D : Type) where
  request : Option (Request D → HandlerOutcome D)
  notification : Bool
  error : Bool

/-- Observable effects of routing one message. -/
inductive RouteEffect (D : Type) where
  | resolved (r : Response D)
  | notified (n : Notification D)
  | reported
  deriving DecidableEq

/-- Result of `route`: the reply text (if any) and the callbacks made. -/
structure RouteResult (D : Type) where
  reply : Option Bytes
  effects : List (RouteEffect D)
  requestsHandled : List (Request D)

/-- The reply built from a handler outcome, JsonRpcMessageRouter.cpp:127-143. -/
def replyFor (req : Request D) : HandlerOutcome D → Response D
  | .resp r => { r with id := req.id }
  | .nul => ⟨req.id, none, some (mkErrorObj Code.internalError (lit "Null response from handler") none)⟩
  | .threw m => ⟨req.id, none, some (mkErrorObj Code.internalError m none)⟩

/-- The notification tail of `route`, JsonRpcMessageRouter.cpp:150-165. -/
def routeNotification (h : Handlers D) (json : Bytes) : RouteResult D :=
  match deNotification (D := D) json with
  | some n => ⟨none, if h.notification then [.notified n] else [], []⟩
  | none => ⟨none, if h.error then [.reported] else [], []⟩

/-- `route`, JsonRpcMessageRouter.cpp:111-166. -/
def route (h : Handlers D) (json : Bytes) : RouteResult D :=
  if hasTopLevelKey json (lit "result") || hasTopLevelKey json (lit "error") then
    ⟨none, [.resolved (deResponse json)], []⟩
  else if containsSub (lit "\"method\"") json && hasTopLevelKey json (lit "id") then
    match deRequest (D := D) json with
    | some req =>
      match h.request with
      | some f => ⟨some (serResponse (replyFor req (f req))), [], [req]⟩
      | none => routeNotification h json
    | none => routeNotification h json
  else routeNotification h json

end router

end Verif
