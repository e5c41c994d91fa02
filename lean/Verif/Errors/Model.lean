import Verif.Json.Access
import Verif.Rpc.Model

/-! Model of include/mcp/errors/Errors.h. -/

namespace Verif.Errors

variable {D : Type}

/-- `ErrorCategory`, 19-31. -/
inductive Category where
  | jsonRpcParse | jsonRpcInvalidRequest | jsonRpcMethodNotFound | jsonRpcInvalidParams | jsonRpcInternal
  | mcpInvalidRequestId | mcpMethodNotAllowed | mcpResourceNotFound | mcpToolNotFound | mcpPromptNotFound | unknown
  deriving DecidableEq

/-- `McpError`, 34-39. `code` is an `int`. -/
structure McpError (D : Type) where
  code : Int
  message : Bytes
  data : Option (JVal D)
  category : Category

/-- `errorCategoryFromCode`, 48-62. -/
def categoryOf (code : Int) : Category :=
  if code = Code.parseError then .jsonRpcParse
  else if code = Code.invalidRequest then .jsonRpcInvalidRequest
  else if code = Code.methodNotFound then .jsonRpcMethodNotFound
  else if code = Code.invalidParams then .jsonRpcInvalidParams
  else if code = Code.internalError then .jsonRpcInternal
  else if code = Code.invalidRequestId then .mcpInvalidRequestId
  else if code = Code.methodNotAllowed then .mcpMethodNotAllowed
  else if code = Code.resourceNotFound then .mcpResourceNotFound
  else if code = Code.toolNotFound then .mcpToolNotFound
  else if code = Code.promptNotFound then .mcpPromptNotFound
  else .unknown

/-- `static_cast<int>` of a 64-bit integer (two's complement wrap). -/
def toInt32 (i : Int) : Int := (i + 2 ^ 31) % 2 ^ 32 - 2 ^ 31

/-- `mcpErrorFromErrorValue`, 72-104. -/
def errorFromValue (v : JVal D) : Option (McpError D) :=
  match v with
  | .obj m =>
    match AMap.get m (lit "code"), AMap.get m (lit "message") with
    | some (.int c), some (.str s) => some ⟨toInt32 c, s, AMap.get m (lit "data"), categoryOf (toInt32 c)⟩
    | _, _ => none
  | _ => none

/-- `mcpErrorFromResponse`, 113-118. -/
def errorFromResponse (r : Response D) : Option (McpError D) := r.error.bind errorFromValue

/-- `makeErrorValue`, 127-135. -/
def makeErrorValue (e : McpError D) : JVal D := mkErrorObj e.code e.message e.data

/-- `makeErrorResponse`, 145-147, with `CreateErrorResponse`, JSONRPCTypes.h. -/
def makeErrorResponse (id : RpcId) (e : McpError D) : Response D := ⟨id, none, some (mkErrorObj e.code e.message e.data)⟩

end Verif.Errors
