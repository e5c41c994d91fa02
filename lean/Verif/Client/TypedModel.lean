import Verif.Errors.Model
import Verif.Validation.Model

/-!
Model of the typed client wrappers, include/mcp/typed/ClientTyped.h, and of the untyped calls below them
(`coCallTool`, `coReadResource`, `coGetPrompt`, src/mcp/Client.cpp 1374-1398, 2003-2053, 2055-2080).
-/

namespace Verif.Client

open Validation Errors

variable {D : Type}

/-- How the future of `transport->SendRequest` ends: an exception, a null response, or a response. -/
inductive Outcome (D : Type) where
  | threw
  | nul
  | resp (r : Response D)

/-- The value `coCallTool`, `coReadResource` and `coGetPrompt` return, Client.cpp 1384-1397: the result, else the error, else null.
The exception is swallowed. -/
def replyValue : Outcome D → JVal D
  | .resp r => match r.result with
    | some v => v
    | none => match r.error with | some e => e | none => .null
  | _ => .null

/-- `isErrorObject`, ClientTyped.h 29-35. -/
def isErrorObject (v : JVal D) : Bool :=
  match v with
  | .obj m => (AMap.get m (lit "code")).isSome && (AMap.get m (lit "message")).isSome
  | _ => false

/-- The common body of `callTool`, `readResource`, `getPrompt` and `doReadResourceRange`, 57-78, 284-348; `none` is an exception. -/
def typedCall {T : Type} (strict : Bool) (valid : JVal D → Bool) (parse : JVal D → T) (o : Outcome D) : Option T :=
  let v := replyValue o
  if isErrorObject v then none
  else if strict && !valid v then none
  else some (parse v)

/-- `CallToolResult`. -/
structure ToolResult (D : Type) where
  content : List (JVal D)
  isError : Bool
  structured : Option (JVal D)
  meta_ : Option (JVal D)

/-- `parseCallToolResult`, 228-251. -/
def parseCallTool (v : JVal D) : ToolResult D :=
  ⟨(v.arrAt (lit "content")).getD [], (v.boolAt (lit "isError")).getD false, v.get? (lit "structuredContent"), v.get? (lit "_meta")⟩

/-- `parseReadResourceResult`, 253-264. -/
def parseRead (v : JVal D) : List (JVal D) := (v.arrAt (lit "contents")).getD []

/-- `parseGetPromptResult`, 266-281. -/
def parsePrompt (v : JVal D) : Bytes × List (JVal D) := ((v.strAt (lit "description")).getD [], (v.arrAt (lit "messages")).getD [])

/-- `typed::callTool`, `typed::readResource`, `typed::getPrompt`. -/
def callTool (strict : Bool) (o : Outcome D) : Option (ToolResult D) := typedCall strict validateCallToolResult parseCallTool o
def readResource (strict : Bool) (o : Outcome D) : Option (List (JVal D)) := typedCall strict validateReadResourceResult parseRead o
def getPrompt (strict : Bool) (o : Outcome D) : Option (Bytes × List (JVal D)) := typedCall strict validateGetPromptResult parsePrompt o

/-- `static_cast<int64_t>` of a `size_t`. -/
def toI64 (n : Nat) : Int := if n < 2 ^ 63 then n else (n : Int) - 2 ^ 64

/-- Bytes of text in one content item, 102-113. -/
def textLen (v : JVal D) : Nat :=
  match v with
  | .obj m =>
    match AMap.get m (lit "type"), AMap.get m (lit "text") with
    | some (.str t), some (.str s) => if t = lit "text" then s.length else 0
    | _, _ => 0
  | _ => 0

/-- The loop of `doReadAllResourceInChunks` and of its cancellable form, 94-123 and 134-163. `ask i offset length` is the outcome of the
`i`-th ranged read, `stop i` the stop token as read before it. `none`: the fuel ran out before the loop ended. -/
def chunkLoop (ask : Nat → Int → Int → Option (List (JVal D))) (stop : Nat → Bool) (chunk : Nat) :
    Nat → Nat → Nat → List (JVal D) → Option (Option (List (JVal D)))
  | 0, _, _, _ => none
  | fuel + 1, i, off, agg =>
    if stop i then some (some agg)
    else match ask i (toI64 off) (toI64 chunk) with
      | none => some none
      | some part =>
        if part.isEmpty then some (some agg)
        else
          let n := (part.map textLen).sum % 2 ^ 64
          if n = 0 then some (some (agg ++ part))
          else chunkLoop ask stop chunk fuel (i + 1) ((off + n) % 2 ^ 64) (agg ++ part)

/-- `doReadAllResourceInChunks(Cancelable)`; a zero chunk size throws. -/
def readAll (ask : Nat → Int → Int → Option (List (JVal D))) (stop : Nat → Bool) (chunk fuel : Nat) : Option (Option (List (JVal D))) :=
  if chunk = 0 then some none else chunkLoop ask stop chunk fuel 0 0 []

/-- The chunk size of the clamp-aware overloads, 186-189 and 201-204. -/
def effectiveChunk (preferred : Nat) (hint : Option Nat) : Nat :=
  match hint with
  | some h => if h > 0 then min preferred h else preferred
  | none => preferred

/-- `extractResourceReadClamp`, 40-51, on `experimental["resourceReadChunking"]`. -/
def clampHint (chunking : Option (JVal D)) : Option Nat :=
  match chunking with
  | some v => match v.intAt (lit "maxChunkBytes") with
    | some i => if i ≤ 0 then none else some i.toNat
    | none => none
  | none => none

/-- The parameters of a ranged read, Client.cpp 2030-2036. -/
def readParams (uri : Bytes) (offset length : Option Int) : JVal D :=
  .obj ([(lit "uri", .str uri)] ++ optField (lit "offset") (offset.map .int) ++ optField (lit "length") (length.map .int))

end Verif.Client
