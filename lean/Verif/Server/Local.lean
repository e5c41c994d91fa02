import Verif.Server.Dispatch

/-!
The calls an application makes on its own server: `coCallTool`, `coReadResource` and `coGetPrompt` (src/mcp/Server.cpp 1950-1974, 2119-2138, 2140-2156), which the
header (include/mcp/Server.h 160-169, 264-271, 351-359) describes as results "mirroring" the responses of `tools/call`, `resources/read` and `prompts/get`.

An exception that leaves a body is what the future of the call ends with; `Ends` says how it ends. The calls change nothing of the server.
-/

namespace Verif.Server

open Items Validation Tasks Resource
open Caps hiding Obj

variable {D H : Type}

/-- `coCallTool`, 1950-1974. -/
def localTool (env : Env D H) (s : Srv D H) (name : Bytes) (args : JVal D) : Ends (JVal D) :=
  match AMap.get s.reg.toolHandlers name with
  | none => .ret .null
  | some h =>
    if env.callable h then
      match env.tool h args with
      | .ret r => .ret (.obj [(lit "content", .arr r.content), (lit "isError", .bool r.isError)])
      | .std w => .std w
      | .other => .other
      | .never => .never
    else .ret .null

/-- The end of `coReadResource`, 2135: `buildReadResourceResultJson` without a range. -/
def builtEnds : Except Bytes (JVal D) → Ends (JVal D)
  | .ok v => .ret v
  | .error w => .std w

/-- The handler of a read has ended, 2129-2135. -/
def afterRead (s : Srv D H) : Ends (List (JVal D)) → Ends (JVal D)
  | .ret l => builtEnds (buildRead s.readCfg l none none)
  | .std w => .std w
  | .other => .other
  | .never => .never

/-- `coReadResource`, 2119-2138. -/
def localRead (env : Env D H) (s : Srv D H) (uri : Bytes) : Ends (JVal D) :=
  match choose (readers env s uri) (templateReaders env s uri) uri with
  | .ambiguous => .std (lit "Ambiguous resource template match")
  | .notFound => .ret .null
  | .direct r => afterRead s r
  | .template f vars => afterRead s (f vars)
  | .badCall => .std (lit "bad_function_call")

/-- `coGetPrompt`, 2140-2156. -/
def localPrompt (env : Env D H) (s : Srv D H) (name : Bytes) (args : JVal D) : Ends (JVal D) :=
  match AMap.get s.reg.promptHandlers name with
  | none => .ret .null
  | some h =>
    match env.prompt h args with
    | .ret r => .ret (.obj [(lit "description", .str r.1), (lit "messages", .arr r.2)])
    | .std w => .std w
    | .other => .other
    | .never => .never

end Verif.Server
