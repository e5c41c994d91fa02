import Verif.Server.Items
import Verif.Base.Num

/-!
The registry of the server: `RegisterTool` ... `UnregisterResourceTemplate`, src/mcp/Server.cpp 2786-2912 and 3224-3295.

Every registration holds `registryMutex`, hence is one atomic step. `H` is the type of handlers (tool, resource, template and prompt
handlers are all `std::function`s; one type of opaque values stands for the four). After the critical section a registration sends a
`list_changed` notification if the transport is connected; `connected` is what `transport->IsConnected()` answered, and `notes` is the
history of notifications handed to the transport.
-/

namespace Verif.Server

open Items

variable {D H : Type}

/-- Which list a notification names. -/
inductive Note where
  | tools | resources | prompts
  deriving DecidableEq

/-- The containers, Server.cpp 1098-1106. -/
structure Reg (D H : Type) where
  toolHandlers : List (Bytes × H)
  toolMeta : List (Bytes × Tool D)
  resHandlers : List (Bytes × H)
  resMeta : List (Bytes × Resource D)
  resUris : List Bytes
  promptHandlers : List (Bytes × H)
  promptMeta : List (Bytes × Prompt D)
  templates : List (Template D × Option H)
  notes : List Note

def Reg.init : Reg D H := ⟨[], [], [], [], [], [], [], [], []⟩

/-- The metadata made up by `RegisterTool(name, handler)`, 2794-2799. -/
def defaultTool (name : Bytes) : Tool D :=
  { name := name, title := none, description := lit "Tool: " ++ name, icons := none
    inputSchema := .obj [(lit "type", .str (lit "object")), (lit "properties", .obj [])]
    outputSchema := none, annotations := none, execution := none, meta_ := none }

/-- `RegisterResource(uri, handler)`, 2845-2848, and `RegisterPrompt(name, handler)`, 2890-2893. -/
def defaultResource (uri : Bytes) : Resource D := ⟨uri, lit "Resource: " ++ uri, none, none, none, none, none, none, none⟩
def defaultPrompt (name : Bytes) : Prompt D := ⟨name, none, lit "Prompt: " ++ name, none, none, none⟩

/-- The calls of the registration API; the flag is the state of the transport. -/
inductive RegOp (D H : Type) where
  | toolNamed (name : Bytes) (h : H)
  | tool (t : Tool D) (h : H)
  | dropTool (name : Bytes)
  | resourceNamed (uri : Bytes) (h : H)
  | resource (r : Resource D) (h : H)
  | dropResource (uri : Bytes)
  | promptNamed (name : Bytes) (h : H)
  | prompt (p : Prompt D) (h : H)
  | dropPrompt (name : Bytes)
  | templateBare (t : Template D)
  | template (t : Template D) (h : H)
  | dropTemplate (uriTemplate : Bytes)

/-- `RegisterTool(name, handler)`, 2786-2808. -/
def Reg.addToolNamed (s : Reg D H) (name : Bytes) (h : H) : Reg D H :=
  { s with toolHandlers := AMap.put s.toolHandlers name h
           toolMeta := match AMap.get s.toolMeta name with
             | some _ => s.toolMeta
             | none => AMap.put s.toolMeta name (defaultTool name) }

/-- `RegisterTool(tool, handler)`, 2810-2823. -/
def Reg.addTool (s : Reg D H) (t : Tool D) (h : H) : Reg D H :=
  { s with toolHandlers := AMap.put s.toolHandlers t.name h, toolMeta := AMap.put s.toolMeta t.name t }

/-- `UnregisterTool`, 2825-2838. -/
def Reg.removeTool (s : Reg D H) (name : Bytes) : Reg D H :=
  { s with toolHandlers := AMap.del s.toolHandlers name, toolMeta := AMap.del s.toolMeta name }

/-- `RegisterResource(resource, handler)`, 2850-2868. -/
def Reg.addResource (s : Reg D H) (r : Resource D) (h : H) : Reg D H :=
  { s with resHandlers := AMap.put s.resHandlers r.uri h, resMeta := AMap.put s.resMeta r.uri r
           resUris := match AMap.get s.resHandlers r.uri with
             | some _ => s.resUris
             | none => s.resUris ++ [r.uri] }

/-- `UnregisterResource`, 2870-2886. -/
def Reg.removeResource (s : Reg D H) (uri : Bytes) : Reg D H :=
  { s with resHandlers := AMap.del s.resHandlers uri, resMeta := AMap.del s.resMeta uri
           resUris := s.resUris.filter (fun u => decide (u ≠ uri)) }

/-- `RegisterPrompt(prompt, handler)`, 2895-2907. -/
def Reg.addPrompt (s : Reg D H) (p : Prompt D) (h : H) : Reg D H :=
  { s with promptHandlers := AMap.put s.promptHandlers p.name h, promptMeta := AMap.put s.promptMeta p.name p }

/-- `UnregisterPrompt`, 2909-2922. -/
def Reg.removePrompt (s : Reg D H) (name : Bytes) : Reg D H :=
  { s with promptHandlers := AMap.del s.promptHandlers name, promptMeta := AMap.del s.promptMeta name }

/-- The `erase(remove_if(...))` of the template functions. -/
def dropTpl (l : List (Template D × Option H)) (u : Bytes) : List (Template D × Option H) :=
  l.filter (fun e => decide (e.1.uriTemplate ≠ u))

/-- `RegisterResourceTemplate`, 3224-3243 and 3245-3265. -/
def Reg.addTemplate (s : Reg D H) (t : Template D) (h : Option H) : Reg D H :=
  { s with templates := dropTpl s.templates t.uriTemplate ++ [(t, h)] }

/-- `UnregisterResourceTemplate`, 3267-3284. -/
def Reg.removeTemplate (s : Reg D H) (u : Bytes) : Reg D H := { s with templates := dropTpl s.templates u }

/-- `if (notify) Notify...ListChanged()`. -/
def Reg.notify (s : Reg D H) (connected : Bool) (n : Note) : Reg D H :=
  if connected then { s with notes := s.notes ++ [n] } else s

/-- One call of the API. -/
def Reg.step (s : Reg D H) (c : Bool × RegOp D H) : Reg D H :=
  match c.2 with
  | .toolNamed n h => (s.addToolNamed n h).notify c.1 .tools
  | .tool t h => (s.addTool t h).notify c.1 .tools
  | .dropTool n => (s.removeTool n).notify c.1 .tools
  | .resourceNamed u h => (s.addResource (defaultResource u) h).notify c.1 .resources
  | .resource r h => (s.addResource r h).notify c.1 .resources
  | .dropResource u => (s.removeResource u).notify c.1 .resources
  | .promptNamed n h => (s.addPrompt (defaultPrompt n) h).notify c.1 .prompts
  | .prompt p h => (s.addPrompt p h).notify c.1 .prompts
  | .dropPrompt n => (s.removePrompt n).notify c.1 .prompts
  | .templateBare t => (s.addTemplate t none).notify c.1 .resources
  | .template t h => (s.addTemplate t (some h)).notify c.1 .resources
  | .dropTemplate u => (s.removeTemplate u).notify c.1 .resources

def Reg.run (s : Reg D H) (ops : List (Bool × RegOp D H)) : Reg D H := ops.foldl Reg.step s

/-! ### The collections the list handlers start from -/

/-- The tools, 672-679: iteration over the map. -/
def Reg.tools (s : Reg D H) : List (Tool D) := s.toolMeta.map (·.2)

/-- Is `uri` of the form `ui://...`? (`uri.rfind("ui://", 0) == 0`) -/
def isUi (uri : Bytes) : Bool := (lit "ui://").isPrefixOf uri

/-- `collectVisibleResources`, 588-612. -/
def Reg.visible (s : Reg D H) (ui : Bool) : List (Resource D) :=
  s.resUris.filterMap (fun uri =>
    match AMap.get s.resMeta uri with
    | none => none
    | some r =>
      if isUi uri then
        if ui then some (match r.mimeType with | some _ => r | none => { r with mimeType := some (lit "text/html+mcp") })
        else none
      else some r)

/-- `collectPromptMetadata`, 614-622. -/
def Reg.prompts (s : Reg D H) : List (Prompt D) := s.promptMeta.map (·.2)

/-- The templates, 744-750 and `ListResourceTemplates`, 3286-3295. -/
def Reg.templateList (s : Reg D H) : List (Template D) := s.templates.map (·.1)

end Verif.Server
