import Verif.Client.Requests
import Verif.Validation.Model

/-!
Model of the helpers that build arguments and results, include/mcp/typed/Prompts.h and include/mcp/typed/Sampling.h, and of the rest of
include/mcp/typed/Content.h 95-196 (the builders and inspectors of one item are in Validation/Model).
-/

namespace Verif.Client

open Validation

variable {D : Type}

/-- A content item made by a builder of Content.h 20-92. -/
inductive Made where
  | text (t : Bytes)
  | image (mime data : Bytes)
  | audio (mime data : Bytes)
  | link (uri name : Bytes) (title description mime : Option Bytes)
  | embeddedText (uri text : Bytes) (mime : Option Bytes)
  | embeddedBlob (uri blob mime : Bytes)

def Made.item : Made → JVal D
  | .text t => makeText t
  | .image m d => makeImage m d
  | .audio m d => makeAudio m d
  | .link u n t d m => makeResourceLink u n t d m
  | .embeddedText u t m => makeEmbeddedText u t m
  | .embeddedBlob u b m => makeEmbeddedBlob u b m

/-- `isText`, `isImage`, `isAudio`, `isResourceLink`, `isEmbeddedResource`, Content.h 104-127. -/
def isTextItem (v : JVal D) : Bool := decide (getType v = some (lit "text"))
def isImageItem (v : JVal D) : Bool := decide (getType v = some (lit "image"))
def isAudioItem (v : JVal D) : Bool := decide (getType v = some (lit "audio"))
def isLinkItem (v : JVal D) : Bool := decide (getType v = some (lit "resource_link"))
def isEmbeddedItem (v : JVal D) : Bool := decide (getType v = some (lit "resource"))

/-- `firstText` of a tool or prompt result and of a read result, Content.h 175-191. -/
def firstText (l : List (JVal D)) : Option Bytes := (collectText l).head?
def firstReadText (l : List (JVal D)) : Option Bytes := (collectReadText l).head?

/-- What `ArgsBuilder` is told: `add`, `addString`, `addInt`, `addBool`, Prompts.h 25-43. -/
inductive ArgOp (D : Type) where
  | add (key : Bytes) (v : JVal D)
  | addString (key v : Bytes)
  | addInt (key : Bytes) (v : Int)
  | addBool (key : Bytes) (v : Bool)

/-- `obj_[key] = value`. -/
def ArgOp.apply (m : Obj D) : ArgOp D → Obj D
  | .add k v => AMap.put m k v
  | .addString k v => AMap.put m k (.str v)
  | .addInt k v => AMap.put m k (.int v)
  | .addBool k v => AMap.put m k (.bool v)

/-- `toJSON`, Prompts.h 45. -/
def argsJson (ops : List (ArgOp D)) : JVal D := .obj (ops.foldl ArgOp.apply [])

/-- `makeTextMessages`, Prompts.h 52-59. -/
def makeTextMessages (texts : List Bytes) : List (JVal D) :=
  texts.map (fun t => .obj (AMap.put (AMap.put [] (lit "type") (.str (lit "text"))) (lit "text") (.str t)))

/-- The prompt `ResultBuilder`, Prompts.h 62-81. -/
structure PromptBuilder (D : Type) where
  description : Bytes
  messages : List (JVal D)

inductive PromptOp where
  | setDescription (d : Bytes)
  | addText (t : Bytes)

def PromptBuilder.step (b : PromptBuilder D) : PromptOp → PromptBuilder D
  | .setDescription d => { b with description := d }
  | .addText t => { b with messages := b.messages ++ [.obj (AMap.put (AMap.put [] (lit "type") (.str (lit "text"))) (lit "text") (.str t))] }

/-- `build`, Prompts.h 75-77: the result a prompt handler returns. -/
def buildPrompt (ops : List PromptOp) : Bytes × List (JVal D) :=
  let b := ops.foldl PromptBuilder.step ⟨[], []⟩
  (b.description, b.messages)

/-- `makeTextPromptResult`, Prompts.h 84-86. -/
def makeTextPromptResult (description : Bytes) (texts : List Bytes) : Bytes × List (JVal D) :=
  buildPrompt (.setDescription description :: texts.map .addText)

/-- `makeTextSamplingResult`, Sampling.h 23-38. -/
def makeTextSamplingResult (model role text : Bytes) : JVal D :=
  .obj (AMap.put (AMap.put (AMap.put [] (lit "model") (.str model)) (lit "role") (.str role)) (lit "content")
    (.arr [.obj (AMap.put (AMap.put [] (lit "type") (.str (lit "text"))) (lit "text") (.str text))]))

/-- `SamplingResultBuilder`, Sampling.h 58-87. -/
structure SampleBuilder (D : Type) where
  model : Bytes
  role : Bytes
  contents : List (JVal D)

inductive SampleOp where
  | setModel (m : Bytes)
  | setRole (r : Bytes)
  | addText (t : Bytes)

def SampleBuilder.step (b : SampleBuilder D) : SampleOp → SampleBuilder D
  | .setModel m => { b with model := m }
  | .setRole r => { b with role := r }
  | .addText t => { b with contents := b.contents ++ [.obj (AMap.put (AMap.put [] (lit "type") (.str (lit "text"))) (lit "text") (.str t))] }

/-- `build`, Sampling.h 75-81. -/
def buildSample (ops : List SampleOp) : JVal D :=
  let b := ops.foldl SampleBuilder.step ⟨[], [], []⟩
  .obj (AMap.put (AMap.put (AMap.put [] (lit "model") (.str b.model)) (lit "role") (.str b.role)) (lit "content") (.arr b.contents))

end Verif.Client
