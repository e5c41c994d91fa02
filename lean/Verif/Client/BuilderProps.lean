import Verif.Client.Builders
import Verif.Client.CallProps
import Verif.Client.RequestProps

/-!
C111: what is built with the typed helpers reaches the other side and is read there by the inspectors as it was built.
-/

namespace Verif
open Server hiding Ends
open Client Validation

variable {D H : Type} [DblFmt D]

/-! ### Specification -/

/-- The texts among items. -/
def Client.Made.texts : List Made → List Bytes
  | [] => []
  | .text t :: l => t :: Made.texts l
  | _ :: l => Made.texts l

/-- The texts added to a prompt, in order, and the description set last. -/
def textsAdded : List PromptOp → List Bytes
  | [] => []
  | .addText t :: l => t :: textsAdded l
  | .setDescription _ :: l => textsAdded l

def descriptionSet (before : Bytes) : List PromptOp → Bytes
  | [] => before
  | .addText _ :: l => descriptionSet before l
  | .setDescription d :: l => descriptionSet d l

/-- What one call gives the argument. -/
def argOf (k : Bytes) : ArgOp D → Option (JVal D)
  | .add k' v => if k' = k then some v else none
  | .addString k' v => if k' = k then some (.str v) else none
  | .addInt k' v => if k' = k then some (.int v) else none
  | .addBool k' v => if k' = k then some (.bool v) else none

/-- The value an argument was given last. -/
def argGiven (k : Bytes) : List (ArgOp D) → Option (JVal D)
  | [] => none
  | op :: l => (argGiven k l).or (argOf k op)

/-- What a sampling result was told. -/
def modelSet (before : Bytes) : List SampleOp → Bytes
  | [] => before
  | .setModel m :: l => modelSet m l
  | _ :: l => modelSet before l

def roleSet (before : Bytes) : List SampleOp → Bytes
  | [] => before
  | .setRole m :: l => roleSet m l
  | _ :: l => roleSet before l

def textsSampled : List SampleOp → List Bytes
  | [] => []
  | .addText t :: l => t :: textsSampled l
  | _ :: l => textsSampled l

/-- Exactly one of five. -/
def OnlyKind (v : JVal D) (kind : Made) : Prop :=
  (isTextItem v = true ↔ ∃ t, kind = .text t) ∧ (isImageItem v = true ↔ ∃ m d, kind = .image m d) ∧ (isAudioItem v = true ↔ ∃ m d, kind = .audio m d) ∧
    (isLinkItem v = true ↔ ∃ u n t d m, kind = .link u n t d m) ∧
    (isEmbeddedItem v = true ↔ (∃ u t m, kind = .embeddedText u t m) ∨ ∃ u b m, kind = .embeddedBlob u b m)

/-! ### Lemmas -/

theorem textItem_eq (t : Bytes) : (.obj (AMap.put (AMap.put [] (lit "type") (.str (lit "text"))) (lit "text") (.str t)) : JVal D) = makeText t := rfl

theorem made_content (x : Made) : Shape.Content (x.item : JVal D) := by
  rw [← isContentItem_iff]
  cases x with
  | text t => rfl
  | image m d => rfl
  | audio m d => rfl
  | link u n t d m => exact (C41_builders u n [] t d m).2.2.2.1
  | embeddedText u t m => exact (C41_builders u t [] none none m).2.2.2.2.1
  | embeddedBlob u b m => rfl

theorem made_text (x : Made) : getText (x.item : JVal D) = match x with | .text t => some t | _ => none := by
  cases x <;> rfl

theorem made_texts (l : List Made) : collectText (l.map Made.item : List (JVal D)) = Made.texts l := by
  induction l with
  | nil => rfl
  | cons x l ih =>
    show ((x.item :: l.map Made.item : List (JVal D)).filterMap getText) = _
    rw [List.filterMap_cons, made_text]
    have ih : (l.map Made.item : List (JVal D)).filterMap getText = Made.texts l := ih
    cases x <;> simp [ih, Made.texts]

theorem build_prompt (ops : List PromptOp) : ∀ b : PromptBuilder D, (ops.foldl PromptBuilder.step b).description = descriptionSet b.description ops ∧
    (ops.foldl PromptBuilder.step b).messages = b.messages ++ (textsAdded ops).map makeText := by
  induction ops with
  | nil => intro b; simp [descriptionSet, textsAdded]
  | cons op ops ih =>
    intro b
    obtain ⟨h1, h2⟩ := ih (b.step op)
    rw [List.foldl_cons, h1, h2]
    cases op with
    | setDescription d => exact ⟨rfl, rfl⟩
    | addText t =>
      refine ⟨rfl, ?_⟩
      simp [PromptBuilder.step, textsAdded, textItem_eq]

theorem build_sample (ops : List SampleOp) : ∀ b : SampleBuilder D, (ops.foldl SampleBuilder.step b).model = modelSet b.model ops ∧
    (ops.foldl SampleBuilder.step b).role = roleSet b.role ops ∧ (ops.foldl SampleBuilder.step b).contents = b.contents ++ (textsSampled ops).map makeText := by
  induction ops with
  | nil => intro b; simp [modelSet, roleSet, textsSampled]
  | cons op ops ih =>
    intro b
    obtain ⟨h1, h2, h3⟩ := ih (b.step op)
    rw [List.foldl_cons, h1, h2, h3]
    cases op with
    | setModel d => exact ⟨rfl, rfl, rfl⟩
    | setRole d => exact ⟨rfl, rfl, rfl⟩
    | addText t =>
      refine ⟨rfl, rfl, ?_⟩
      simp [SampleBuilder.step, textsSampled, textItem_eq]

theorem args_get (k : Bytes) (ops : List (ArgOp D)) : ∀ m : Obj D, AMap.get (ops.foldl ArgOp.apply m) k = (argGiven k ops).or (AMap.get m k) := by
  induction ops with
  | nil => intro m; rfl
  | cons op ops ih =>
    intro m
    rw [List.foldl_cons, ih]
    rw [argGiven, Option.or_assoc]
    refine congrArg (fun x => (argGiven k ops).or x) ?_
    cases op with
    | add k' v =>
      simp only [ArgOp.apply, AMap.get_put, argOf]
      by_cases e : k' = k
      · simp [e]
      · rw [if_neg e, if_neg (fun h => e h.symm), Option.none_or]
    | addString k' v =>
      simp only [ArgOp.apply, AMap.get_put, argOf]
      by_cases e : k' = k
      · simp [e]
      · rw [if_neg e, if_neg (fun h => e h.symm), Option.none_or]
    | addInt k' v =>
      simp only [ArgOp.apply, AMap.get_put, argOf]
      by_cases e : k' = k
      · simp [e]
      · rw [if_neg e, if_neg (fun h => e h.symm), Option.none_or]
    | addBool k' v =>
      simp only [ArgOp.apply, AMap.get_put, argOf]
      by_cases e : k' = k
      · simp [e]
      · rw [if_neg e, if_neg (fun h => e h.symm), Option.none_or]

theorem text_content (t : Bytes) : Shape.Content (makeText t : JVal D) := made_content (.text t)

theorem text_prompt (t : Bytes) : Shape.PromptMessage (makeText t : JVal D) := by
  rw [← isPromptMessageItem_iff]
  rfl

theorem texts_collect (l : List Bytes) : collectText (l.map makeText : List (JVal D)) = l := ((C41_built_result_accepted l).2.2.1)

/-! ### Theorems -/

/-- **C111.** A prompt handler is given the arguments built, each with the value it was given last, and the client reads from the result the
description set last and the texts in the order they were added. -/
theorem C111_prompt (env : Env D H) (hu : Undisturbed env) (s : Srv D H) (i : RpcId) (strict : Bool) (name : Bytes) (h : H)
    (hh : AMap.get s.reg.promptHandlers name = some h) (args : List (ArgOp D)) (ops : List PromptOp)
    (hr : ∀ m, (∀ k, AMap.get m k = argGiven k args) → env.prompt h (.obj m) = .ret (buildPrompt ops)) :
    ∃ o ms, Yields env s i "prompts/get" (some (callParams name (argsJson args))) o ∧ getPrompt strict o = some (descriptionSet [] ops, ms) ∧
      collectText ms = textsAdded ops ∧ firstText ms = (textsAdded ops).head? := by
  obtain ⟨h1, h2⟩ := build_prompt ops (⟨[], []⟩ : PromptBuilder D)
  have hb : (buildPrompt ops : Bytes × List (JVal D)) = (descriptionSet [] ops, (textsAdded ops).map makeText) := by
    unfold buildPrompt
    rw [Prod.mk.injEq]
    exact ⟨h1, by simpa using h2⟩
  have hr := hr (args.foldl ArgOp.apply []) (fun k => by rw [args_get]; simp [AMap.get_nil])
  rw [hb] at hr
  obtain ⟨o, ho, hp⟩ := C68_get_prompt env hu s i strict name h hh (argsJson args) _ _ hr (by
    intro _ x hx
    obtain ⟨t, -, rfl⟩ := List.mem_map.1 hx
    exact text_prompt t)
  exact ⟨o, _, ho, hp, texts_collect _, by unfold firstText; rw [texts_collect]⟩

/-- **C111.** `makeTextPromptResult` and `makeTextMessages` are the builder with the texts one by one. -/
theorem C111_shorthand (d : Bytes) (texts : List Bytes) :
    (makeTextPromptResult d texts : Bytes × List (JVal D)) = (d, makeTextMessages texts) ∧ collectText (makeTextMessages texts : List (JVal D)) = texts := by
  obtain ⟨h1, h2⟩ := build_prompt (.setDescription d :: texts.map .addText) (⟨[], []⟩ : PromptBuilder D)
  have e1 : ∀ (b : Bytes) (l : List Bytes), descriptionSet b (l.map .addText) = b := by
    intro b l; induction l with
    | nil => rfl
    | cons x l ih => exact ih
  have e2 : ∀ l : List Bytes, textsAdded (l.map .addText) = l := by
    intro l; induction l with
    | nil => rfl
    | cons x l ih => show x :: textsAdded (l.map .addText) = _; rw [ih]
  constructor
  · unfold makeTextPromptResult buildPrompt
    rw [Prod.mk.injEq]
    refine ⟨h1.trans (e1 d texts), h2.trans ?_⟩
    show [] ++ (textsAdded (texts.map .addText)).map makeText = _
    rw [e2]
    rfl
  · exact texts_collect texts

/-- **C111.** The content of a tool result made with the builders comes out as it was made: of each item the client sees what kind it is, and
`collectText` gives the texts among them in order, `firstText` the first. -/
theorem C111_tool (env : Env D H) (hu : Undisturbed env) (s : Srv D H) (i : RpcId) (strict : Bool) (name : Bytes) (hn : name ≠ []) (h : H)
    (hh : AMap.get s.reg.toolHandlers name = some h) (hc : env.callable h = true) (hreq : ¬ Declares s.reg name "required") (args : List (ArgOp D))
    (made : List Made) (r : ToolRes D) (hm : r.content = made.map Made.item)
    (hr : ∀ m, (∀ k, AMap.get m k = argGiven k args) → env.tool h (.obj m) = .ret r) :
    ∃ o t, Yields env s i "tools/call" (some (callParams name (argsJson args))) o ∧ callTool strict o = some t ∧ t.isError = r.isError ∧
      collectText t.content = Made.texts made ∧ firstText t.content = (Made.texts made).head? ∧ t.content.length = made.length ∧
      ∀ (k : Nat) v x, t.content[k]? = some v → made[k]? = some x → OnlyKind v x := by
  have hr := hr (args.foldl ArgOp.apply []) (fun k => by rw [args_get]; simp [AMap.get_nil])
  obtain ⟨o, t, h1, h2, h3, h4, -, -⟩ := C68_call_tool env hu s i strict name hn h hh hc hreq (argsJson args) r hr (by
    intro _ x hx
    rw [hm] at hx
    obtain ⟨y, -, rfl⟩ := List.mem_map.1 hx
    exact made_content y)
  rw [hm] at h3
  refine ⟨o, t, h1, h2, h4, by rw [h3]; exact made_texts made, by unfold firstText; rw [h3, made_texts], by rw [h3]; simp, ?_⟩
  intro k v x hv hx
  rw [h3, List.getElem?_map, hx] at hv
  have : x.item = v := Option.some.inj hv
  rw [← this]
  cases x <;> refine ⟨?_, ?_, ?_, ?_, ?_⟩ <;> first
    | (refine ⟨fun _ => ?_, fun _ => rfl⟩; first | exact ⟨_, rfl⟩ | exact ⟨_, _, rfl⟩ | exact ⟨_, _, _, _, _, rfl⟩ | exact .inl ⟨_, _, _, rfl⟩ | exact .inr ⟨_, _, _, rfl⟩)
    | (refine ⟨fun h => absurd h (by simp [isTextItem, isImageItem, isAudioItem, isLinkItem, isEmbeddedItem, getType, Made.item, makeText, makeImage, makeAudio, makeResourceLink, makeEmbeddedText, makeEmbeddedBlob, JVal.strAt, JVal.get?, AMap.get, JVal.asStr, lit]), fun h => ?_⟩; simp at h)

/-- **C111.** A read of a resource whose handler returns texts made with `makeText` gives those texts. -/
theorem C111_read (env : Env D H) (hu : Undisturbed env) (s : Srv D H) (i : RpcId) (strict : Bool) (uri : Bytes) (hn : uri ≠ []) (h : H)
    (hh : AMap.get s.reg.resHandlers uri = some h) (hc : env.callable h = true) (texts : List Bytes) (hr : env.read h uri Resource.Vars.empty = .ret (texts.map makeText)) :
    ∃ o l, Yields env s i "resources/read" (some (readParams uri none none)) o ∧ readResource strict o = some l ∧ collectReadText l = texts ∧
      firstReadText l = texts.head? := by
  obtain ⟨o, h1, h2⟩ := C68_read_resource env hu s i strict uri hn h hh hc _ hr (by
    intro _ x hx
    obtain ⟨t, -, rfl⟩ := List.mem_map.1 hx
    left
    rw [← isTextContentItem_iff]
    rfl)
  exact ⟨o, _, h1, h2, (C41_built_result_accepted texts).2.2.2, by unfold firstReadText; rw [(C41_built_result_accepted texts).2.2.2]⟩

/-- **C111.** A sampling result built by the client's handler is what the server's call returns: the model and the role set last and the texts in the
order they were added; a strict client lets it pass. `makeTextSamplingResult` is the builder with one text. -/
theorem C111_sampling (env : CliEnv D H) (hc : env.cancelled = false) (s : Cli D H) (i : RpcId) (h : H)
    (hs : s.sampling = some h ∨ s.sampling = none ∧ s.samplingCancelable = some h) (p : SampleReq D) (ops : List SampleOp)
    (hr : env.sample h (sampleView p) = .ret (buildSample ops)) (hm : s.strict = true → ∀ m ∈ p.messages, isSamplingMessage m = true) :
    ∃ o l, ClientYields env s i "sampling/createMessage" (some (.obj (sampleParams p))) o ∧ (sampleOf o).strAt (lit "model") = some (modelSet [] ops) ∧
      (sampleOf o).strAt (lit "role") = some (roleSet [] ops) ∧ (sampleOf o).arrAt (lit "content") = some l ∧ collectText l = textsSampled ops := by
  obtain ⟨h1, h2, h3⟩ := build_sample ops (⟨[], [], []⟩ : SampleBuilder D)
  have hb : (buildSample ops : JVal D) = .obj [(lit "model", .str (modelSet [] ops)), (lit "role", .str (roleSet [] ops)),
      (lit "content", .arr ((textsSampled ops).map makeText))] := by
    unfold buildSample
    dsimp only
    rw [h1, h2, h3]
    rfl
  rw [hb] at hr
  obtain ⟨o, h1, h2⟩ := C74_sampling env hc s i h hs p _ hr (by
    intro e
    refine ⟨hm e, ?_⟩
    rw [← (C41_others _).2.2.2]
    show (true && true && ((textsSampled ops).map makeText : List (JVal D)).all isContentItem) = true
    simp only [Bool.and_self, Bool.true_and, List.all_eq_true]
    intro x hx
    obtain ⟨t, -, rfl⟩ := List.mem_map.1 hx
    rfl)
  refine ⟨o, (textsSampled ops).map makeText, h1, ?_, ?_, ?_, texts_collect _⟩
  · rw [h2]; rfl
  · rw [h2]; rfl
  · rw [h2]; rfl

theorem C111_sampling_shorthand (model role text : Bytes) :
    (makeTextSamplingResult model role text : JVal D) = buildSample [.setModel model, .setRole role, .addText text] := rfl

/-- **C111, false for prompt messages as the protocol has them**, with a role and a content: they are valid and arrive, but `collectText` and `firstText`
find no text in them, whatever the roles and texts are. -/
theorem C111_role_counterexample (env : Env D H) (hu : Undisturbed env) (s : Srv D H) (i : RpcId) (strict : Bool) (name : Bytes) (h : H)
    (hh : AMap.get s.reg.promptHandlers name = some h) (args : JVal D) (d : Bytes) (said : List (Bytes × Bytes))
    (hr : env.prompt h args = .ret (d, said.map (fun p => .obj [(lit "role", .str p.1), (lit "content", makeText p.2)]))) :
    ∃ o ms, Yields env s i "prompts/get" (some (callParams name args)) o ∧ getPrompt strict o = some (d, ms) ∧ ms.length = said.length ∧
      (∀ m ∈ ms, Shape.PromptMessage m) ∧ collectText ms = [] ∧ firstText ms = none := by
  have hv : ∀ x ∈ (said.map (fun p => .obj [(lit "role", .str p.1), (lit "content", makeText p.2)]) : List (JVal D)), Shape.PromptMessage x := by
    intro x hx
    obtain ⟨t, -, rfl⟩ := List.mem_map.1 hx
    rw [← isPromptMessageItem_iff]
    rfl
  obtain ⟨o, h1, h2⟩ := C68_get_prompt env hu s i strict name h hh args d _ hr (fun _ => hv)
  have e : collectText (said.map (fun p => .obj [(lit "role", .str p.1), (lit "content", makeText p.2)]) : List (JVal D)) = [] := by
    unfold collectText
    rw [List.filterMap_eq_nil_iff]
    intro x hx
    obtain ⟨t, -, rfl⟩ := List.mem_map.1 hx
    rfl
  exact ⟨o, _, h1, h2, by simp, hv, e, by unfold firstText; rw [e]; rfl⟩

/-- **C111, false for a client that reads prompt messages by the protocol**: none of those the builders make has a role or a content. -/
theorem C111_bare_counterexample (ops : List PromptOp) :
    ∀ m ∈ (buildPrompt ops : Bytes × List (JVal D)).2, m.get? (lit "role") = none ∧ m.get? (lit "content") = none := by
  intro m hm
  obtain ⟨-, h2⟩ := build_prompt ops (⟨[], []⟩ : PromptBuilder D)
  have h2 : (buildPrompt ops : Bytes × List (JVal D)).2 = _ := h2
  rw [h2, List.nil_append] at hm
  obtain ⟨t, -, rfl⟩ := List.mem_map.1 hm
  exact ⟨rfl, rfl⟩

/-! ### The hypotheses can be met -/

example : descriptionSet [] [.addText (lit "a"), .setDescription (lit "d"), .addText (lit "b")] = lit "d" ∧
    textsAdded [.addText (lit "a"), .setDescription (lit "d"), .addText (lit "b")] = [lit "a", lit "b"] ∧
    argGiven (lit "k") ([.addInt (lit "k") 1, .addString (lit "x") (lit "y"), .addBool (lit "k") true] : List (ArgOp Empty)) = some (.bool true) := by
  refine ⟨rfl, rfl, ?_⟩
  simp [argGiven, argOf, lit]

/-- A server whose handlers build their results. -/
def builtEnv : Env Empty Nat :=
  { echoEnv with
    prompt := fun _ _ => .ret (buildPrompt [.addText (lit "a"), .setDescription (lit "d")])
    tool := fun _ a => .ret ⟨[Made.item (.text (lit "t")), Made.item (.audio (lit "audio/wav") (lit "AA=="))], false, some a, none⟩ }

example : Undisturbed builtEnv ∧ AMap.get echoSrv.reg.promptHandlers (lit "p") = some 0 ∧ builtEnv.callable 0 = true :=
  ⟨⟨rfl, rfl, rfl⟩, by decide, rfl⟩

example : ∃ o ms, Yields builtEnv echoSrv .null "prompts/get" (some (callParams (lit "p") (argsJson [.addInt (lit "k") 1]))) o ∧
    getPrompt true o = some (lit "d", ms) ∧ collectText ms = [lit "a"] ∧ firstText ms = some (lit "a") :=
  C111_prompt builtEnv ⟨rfl, rfl, rfl⟩ echoSrv .null true (lit "p") 0 (by decide) [.addInt (lit "k") 1] [.addText (lit "a"), .setDescription (lit "d")] (fun _ _ => rfl)

example : Made.texts [.image (lit "image/png") (lit "AA=="), .text (lit "a"), .embeddedText (lit "u") (lit "t") none, .text (lit "b")] = [lit "a", lit "b"] := rfl

end Verif
