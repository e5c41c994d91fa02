import Verif.Json.Access

/-!
The documented shapes of MCP results, written as tables: which members an object must have, which it may have, and of what type.
Members not mentioned may be anything.
-/

namespace Verif.Shape

variable {D : Type}

abbrev Shape (D : Type) := JVal D → Prop

def Any : Shape D := fun _ => True
def Str : Shape D := fun v => ∃ s, v = .str s
def NotStr : Shape D := fun v => ¬ Str v
def Const (c : String) : Shape D := fun v => v = .str (lit c)
def Int_ : Shape D := fun v => ∃ i, v = .int i
def Bool_ : Shape D := fun v => ∃ b, v = .bool b
def Null : Shape D := fun v => v = .null
def Num : Shape D := fun v => (∃ i, v = .int i) ∨ ∃ d, v = .dbl d
def Arr (p : Shape D) : Shape D := fun v => ∃ l, v = .arr l ∧ ∀ x ∈ l, p x
def Or (ps : List (Shape D)) : Shape D := fun v => ∃ p ∈ ps, p v

/-- An object with the required and optional members of the tables. -/
def Obj (req opt : List (String × Shape D)) : Shape D := fun v =>
  ∃ m, v = .obj m ∧ (∀ p ∈ req, ∃ x, AMap.get m (lit p.1) = some x ∧ p.2 x) ∧ (∀ p ∈ opt, ∀ x, AMap.get m (lit p.1) = some x → p.2 x)

def Icon : Shape D := Obj [("src", Str)] [("mimeType", Str), ("sizes", Arr Str), ("theme", Or [Const "light", Const "dark"])]

def Annotations : Shape D := Obj [] [("audience", Arr Str), ("priority", Num)]

/-- Text or binary contents of a resource: exactly one of `text` and `blob` is a string. -/
def ResourceContents : Shape D :=
  Or [Obj [("uri", Str), ("text", Str)] [("mimeType", Str), ("blob", NotStr)], Obj [("uri", Str), ("blob", Str)] [("mimeType", Str), ("text", NotStr)]]

def TextContent : Shape D := Obj [("type", Const "text"), ("text", Str)] [("annotations", Annotations)]

def Content : Shape D :=
  Or [TextContent,
      Obj [("type", Const "image"), ("mimeType", Str), ("data", Str)] [("annotations", Annotations)],
      Obj [("type", Const "audio"), ("mimeType", Str), ("data", Str)] [("annotations", Annotations)],
      Obj [("type", Const "resource_link"), ("uri", Str), ("name", Str)]
        [("title", Str), ("description", Str), ("mimeType", Str), ("size", Int_), ("annotations", Annotations)],
      Obj [("type", Const "resource"), ("resource", ResourceContents)] [("annotations", Annotations)]]

def CallToolResult : Shape D := Obj [("content", Arr Content)] [("isError", Bool_)]

def ReadResourceResult : Shape D := Obj [("contents", Arr (Or [TextContent, ResourceContents]))] []

def PromptMessage : Shape D := Or [Content, Obj [("role", Str), ("content", Content)] []]

def GetPromptResult : Shape D := Obj [("description", Str), ("messages", Arr PromptMessage)] []

def CompletionResult : Shape D := Obj [("completion", Obj [("values", Arr Str)] [("total", Int_), ("hasMore", Bool_)])] []

def ElicitationRequest : Shape D :=
  Obj [("message", Str), ("requestedSchema", Any)] [("title", Str), ("mode", Str), ("url", Str), ("elicitationId", Str)]

def ElicitationResult : Shape D :=
  Obj [("action", Or [Const "accept", Const "decline", Const "cancel"])] [("elicitationId", Str)]

def Task : Shape D :=
  Obj [("taskId", Str), ("status", Str), ("createdAt", Str), ("lastUpdatedAt", Str)]
    [("statusMessage", Str), ("pollInterval", Int_), ("ttl", Or [Int_, Null])]

def CreateTaskResult : Shape D := Obj [("task", Task)] []

def TasksListResult : Shape D := Obj [("tasks", Arr Task)] [("nextCursor", Str)]

def Cursor : Shape D := Or [Str, Int_]

def ToolsList : Shape D :=
  Obj [("tools", Arr (Obj [("name", Str)] [("title", Str), ("description", Str), ("annotations", Annotations), ("icons", Arr Icon)]))]
    [("nextCursor", Cursor)]

def ResourcesList : Shape D :=
  Obj [("resources", Arr (Obj [("uri", Str), ("name", Str)]
    [("title", Str), ("description", Str), ("mimeType", Str), ("size", Int_), ("annotations", Annotations), ("icons", Arr Icon)]))]
    [("nextCursor", Cursor)]

def TemplatesList : Shape D :=
  Obj [("resourceTemplates", Arr (Obj [("uriTemplate", Str), ("name", Str)]
    [("title", Str), ("description", Str), ("mimeType", Str), ("annotations", Annotations), ("icons", Arr Icon)]))]
    [("nextCursor", Cursor)]

def PromptsList : Shape D :=
  Obj [("prompts", Arr (Obj [("name", Str)] [("title", Str), ("description", Str), ("icons", Arr Icon)]))] [("nextCursor", Cursor)]

def RootsList : Shape D := Obj [("roots", Arr (Obj [("uri", Str)] [("name", Str)]))] []

def CreateMessageParams : Shape D := Obj [("messages", Arr (Obj [] [("content", Or [Content, Arr Content])]))] []

def CreateMessageResult : Shape D := Obj [("model", Str), ("role", Str), ("content", Or [Content, Arr Content])] []

end Verif.Shape
