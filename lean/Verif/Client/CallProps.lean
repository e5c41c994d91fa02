import Verif.Client.Calls
import Verif.Client.TypedProps
import Verif.Resource.TemplateProps
import Verif.Resource.ReadProps
import Verif.Server.TaskFlowProps

/-!
C68: what a client passes to a call reaches the handler of the server, and what the handler returns is what the call returns.
C71: a call does not report success when the server reported failure. C72: the task calls of the client show the task the server has.
-/

set_option linter.unusedSectionVars false

namespace Verif

open Server Tasks Resource Validation Client
open Caps hiding Obj

variable {D H : Type}

/-! ### Specification -/

/-- `o` is how the future of the call `method` with `params` ends when this server handles the request under id `i`. -/
def Yields (env : Env D H) (s : Srv D H) (i : RpcId) (method : String) (params : Option (JVal D)) (o : Outcome D) : Prop :=
  ∃ r, o = .resp r ∧ (dispatch env s ⟨i, lit method, params⟩).1 = .answer r

/-- Nobody cancels the request. -/
def Undisturbed (env : Env D H) : Prop := env.cancelled0 = false ∧ env.cancelled1 = false ∧ env.cancelled2 = false

/-! ### Lemmas -/

theorem get_map_val {A B : Type} (f : A → B) (l : List (Bytes × A)) (k : Bytes) :
    AMap.get (l.map (fun e => (e.1, f e.2))) k = (AMap.get l k).map f := by
  induction l with
  | nil => rfl
  | cons e es ih =>
    rw [List.map_cons, AMap.get_cons, AMap.get_cons]
    by_cases h : e.1 = k
    · simp [h]
    · simp [h, ih]

theorem checked_ok {strict : Bool} {valid : JVal D → Bool} {msg : Bytes} {i : RpcId} {v : JVal D} (h : strict = true → valid v = true) :
    checked strict valid msg i v = okay i v := by
  unfold checked
  rw [if_neg]
  cases hs : strict with
  | false => simp
  | true => simp [h hs]

theorem completeArgs_params (a : CompleteArgs D) : ∃ m, (completeParams a : JVal D) = .obj m ∧ completeArgs m = some a := by
  obtain ⟨ref, n, v, c⟩ := a
  refine ⟨_, rfl, ?_⟩
  cases c <;> rfl

theorem completion_valid (c : Completion) : validateCompletionResult (completionJson c : JVal D) = true := by
  obtain ⟨vs, t, b⟩ := c
  have h : (vs.map (JVal.str (D := D))).all isStr = true := by simp [isStr]
  cases t with
  | none =>
    show (isArrOf isStr (JVal.arr (vs.map .str)) && true && true) = true
    simpa [isArrOf] using h
  | some i =>
    show (isArrOf isStr (JVal.arr (vs.map .str)) && true && true) = true
    simpa [isArrOf] using h

theorem filterMap_str (vs : List Bytes) : (vs.map (JVal.str (D := D))).filterMap JVal.asStr = vs := by
  induction vs with
  | nil => rfl
  | cons a as ih => rw [List.map_cons, List.filterMap_cons]; simp [JVal.asStr, ih]

theorem parseCompletion_json (c : Completion) : parseCompletion (completionJson c : JVal D) = c := by
  obtain ⟨vs, t, b⟩ := c
  cases t with
  | none =>
    show (⟨(vs.map (JVal.str (D := D))).filterMap JVal.asStr, none, b⟩ : Completion) = _
    rw [filterMap_str]
  | some i =>
    show (⟨(vs.map (JVal.str (D := D))).filterMap JVal.asStr, some i, b⟩ : Completion) = _
    rw [filterMap_str]

theorem nameOf_call (name : Bytes) (args : JVal D) : nameOf (some (callParams name args)) = name := rfl
theorem argsOf_call (name : Bytes) (args : JVal D) : argsOf (some (callParams name args)) = args := rfl
theorem taskMeta_call (name : Bytes) (args : JVal D) : taskMeta (some (callParams name args)) = none := rfl
theorem nameOf_taskCall (name : Bytes) (args : JVal D) (ttl : Option Int) : nameOf (some (taskCallParams name args ttl)) = name := rfl
theorem argsOf_taskCall (name : Bytes) (args : JVal D) (ttl : Option Int) : argsOf (some (taskCallParams name args ttl)) = args := rfl
theorem taskMeta_taskCall (name : Bytes) (args : JVal D) (ttl : Option Int) : taskMeta (some (taskCallParams name args ttl)) = some ttl := by
  cases ttl <;> rfl

theorem dispatch_complete (env : Env D H) (s : Srv D H) (req : Request D) (h : req.method = lit "completion/complete") :
    dispatch env s req = (completeRequest env s req, s) := by
  unfold dispatch
  rw [h]
  rw [if_neg (by decide), if_neg (by decide), if_neg (by decide), if_neg (by decide), if_neg (by decide), if_neg (by decide), if_neg (by decide),
    if_neg (by decide), if_neg (by decide), if_pos rfl]

theorem dispatch_toolsCall (env : Env D H) (s : Srv D H) (req : Request D) (h : req.method = lit "tools/call") :
    dispatch env s req = (afterwards env.cancelled2 req.id (toolsCall env s req).1, (toolsCall env s req).2) := by
  unfold dispatch
  rw [h]
  rw [if_neg (by decide), if_neg (by decide), if_neg (by decide), if_neg (by decide), if_neg (by decide), if_neg (by decide), if_neg (by decide),
    if_neg (by decide), if_pos rfl]

theorem dispatch_sampling (env : Env D H) (s : Srv D H) (req : Request D) (h : req.method = lit "sampling/createMessage") :
    dispatch env s req = (createMessage env s req, s) := by
  unfold dispatch
  rw [h]
  rw [if_neg (by decide), if_neg (by decide), if_neg (by decide), if_neg (by decide), if_neg (by decide), if_neg (by decide), if_neg (by decide),
    if_neg (by decide), if_neg (by decide), if_neg (by decide), if_neg (by decide), if_neg (by decide), if_neg (by decide), if_neg (by decide),
    if_pos rfl]

theorem dispatch_read (env : Env D H) (s : Srv D H) (req : Request D) (h : req.method = lit "resources/read") :
    dispatch env s req = (afterwards env.cancelled2 req.id (resourcesRead env s req), s) := by
  unfold dispatch
  rw [h]
  rw [if_neg (by decide), if_neg (by decide), if_neg (by decide), if_neg (by decide), if_neg (by decide), if_neg (by decide), if_neg (by decide),
    if_neg (by decide), if_neg (by decide), if_neg (by decide), if_neg (by decide), if_neg (by decide), if_neg (by decide), if_neg (by decide),
    if_neg (by decide), if_pos rfl]

theorem dispatch_prompt (env : Env D H) (s : Srv D H) (req : Request D) (h : req.method = lit "prompts/get") (hc : env.cancelled0 = false) :
    dispatch env s req = (afterwards env.cancelled2 req.id (promptsGet env s req), s) := by
  unfold dispatch
  rw [h]
  rw [if_neg (by decide), if_neg (by decide), if_neg (by decide), if_neg (by decide), if_neg (by decide), if_neg (by decide), if_neg (by decide),
    if_neg (by decide), if_neg (by decide), if_neg (by decide), if_neg (by decide), if_neg (by decide), if_neg (by decide), if_neg (by decide),
    if_neg (by decide), if_neg (by decide), if_neg (by decide), if_pos rfl]
  simp [hc]

theorem toolResult_get (r : ToolRes D) : (toolResultJson r).get? (lit "content") = some (.arr r.content) ∧
    (toolResultJson r).get? (lit "isError") = some (.bool r.isError) ∧ (toolResultJson r).get? (lit "structuredContent") = r.structured ∧
    (toolResultJson r).get? (lit "_meta") = r.meta_ ∧ (toolResultJson r).get? (lit "code") = none := by
  obtain ⟨c, e, st, m⟩ := r
  cases st <;> cases m <;> exact ⟨rfl, rfl, rfl, rfl, rfl⟩

theorem toolResult_valid (r : ToolRes D) (h : ∀ x ∈ r.content, Shape.Content x) : validateCallToolResult (toolResultJson r) = true := by
  obtain ⟨h1, h2, _⟩ := toolResult_get r
  have : ∀ m, toolResultJson r = .obj m → validateCallToolResult (toolResultJson r) = true := by
    intro m hm
    rw [hm] at h1 h2 ⊢
    simp only [JVal.get?] at h1 h2
    simp only [validateCallToolResult, need, h1, isOptionalBoolField, h2, isArrOf, Bool.and_true]
    rw [List.all_eq_true]
    exact fun x hx => (isContentItem_iff x).2 (h x hx)
  exact this _ rfl

theorem arrAt_of {v : JVal D} {k : Bytes} {l : List (JVal D)} (h : v.get? k = some (.arr l)) : v.arrAt k = some l := by
  simp [JVal.arrAt, h, JVal.asArr]
theorem boolAt_of {v : JVal D} {k : Bytes} {b : Bool} (h : v.get? k = some (.bool b)) : v.boolAt k = some b := by
  simp [JVal.boolAt, h, JVal.asBool]

/-! ### C68 -/

/-- **C68.** The completion handler is given exactly what was passed to `Complete`, and what it returns is what `Complete` returns, in
every mode of both sides. -/
theorem C68_complete (env : Env D H) (s : Srv D H) (i : RpcId) (strict : Bool) (h : H) (hs : s.completion = some h) (a : CompleteArgs D)
    (c : Completion) (hc : env.complete h a = .ret c) :
    ∃ o, Yields env s i "completion/complete" (some (completeParams a)) o ∧ complete strict o = some c := by
  obtain ⟨m, hm, ha⟩ := completeArgs_params a
  refine ⟨.resp ⟨i, some (completionJson c), none⟩, ⟨_, rfl, ?_⟩, ?_⟩
  · rw [dispatch_complete _ _ _ rfl]
    simp only [completeRequest, hs, hm, ha, hc]
    rw [checked_ok (fun _ => completion_valid c)]; rfl
  · simp [complete, completion_valid, parseCompletion_json]

/-- **C68.** A tool handler is given exactly the arguments of `CallTool`, and the typed call returns exactly what the handler returned
(when either side is strict, if the content has the documented shape). -/
theorem C68_call_tool (env : Env D H) (hu : Undisturbed env) (s : Srv D H) (i : RpcId) (strict : Bool) (name : Bytes) (hn : name ≠ []) (h : H)
    (hh : AMap.get s.reg.toolHandlers name = some h) (hc : env.callable h = true) (hreq : ¬ Declares s.reg name "required") (args : JVal D) (r : ToolRes D)
    (hr : env.tool h args = .ret r) (hv : s.strict = true ∨ strict = true → ∀ x ∈ r.content, Shape.Content x) :
    ∃ o t, Yields env s i "tools/call" (some (callParams name args)) o ∧ callTool strict o = some t ∧
      t.content = r.content ∧ t.isError = r.isError ∧ t.structured = r.structured ∧ t.meta_ = r.meta_ := by
  obtain ⟨_, h1, h2⟩ := hu
  obtain ⟨g1, g2, g3, g4, g5⟩ := toolResult_get r
  have hsup : supportOf (AMap.get s.reg.toolMeta name) ≠ .required := fun e => hreq ((support_required s.reg name).1 e)
  have hx : toolsCall env s ⟨i, lit "tools/call", some (callParams name args)⟩ =
      (toolSync env s.strict i h args, { s with runs := s.runs ++ [.sync name args] }) := by
    unfold toolsCall
    simp only [nameOf_call, hn, if_false, hh, hc, if_true, taskMeta_call, argsOf_call]
  refine ⟨.resp ⟨i, some (toolResultJson r), none⟩, ⟨r.content, r.isError, r.structured, r.meta_⟩, ⟨_, rfl, ?_⟩, ?_, rfl, rfl, rfl, rfl⟩
  · rw [dispatch_toolsCall _ _ _ rfl, hx]
    simp only [toolSync, hr, h1, Bool.false_eq_true, if_false]
    rw [checked_ok (fun e => toolResult_valid r (hv (.inl e)))]
    simp [okay, afterwards, h2]
  · rw [show callTool strict _ = _ from Client.typedCall_success (v := toolResultJson r) ⟨_, rfl, rfl, rfl⟩ (.inl g5)
      (fun e => toolResult_valid r (hv (.inr e)))]
    unfold parseCallTool
    rw [arrAt_of g1, boolAt_of g2, g3, g4]
    rfl

/-- **C68.** The handler of a prompt is given exactly the arguments of `GetPrompt`, and the typed call returns exactly its description and
messages. -/
theorem C68_get_prompt (env : Env D H) (hu : Undisturbed env) (s : Srv D H) (i : RpcId) (strict : Bool) (name : Bytes) (h : H)
    (hh : AMap.get s.reg.promptHandlers name = some h) (args : JVal D) (d : Bytes) (ms : List (JVal D)) (hr : env.prompt h args = .ret (d, ms))
    (hv : s.strict = true ∨ strict = true → ∀ x ∈ ms, Shape.PromptMessage x) :
    ∃ o, Yields env s i "prompts/get" (some (callParams name args)) o ∧ getPrompt strict o = some (d, ms) := by
  obtain ⟨h0, _, h2⟩ := hu
  have hall : s.strict = true ∨ strict = true → ms.all isPromptMessageItem = true := fun e =>
    List.all_eq_true.2 fun x hx => (isPromptMessageItem_iff x).2 (hv e x hx)
  refine ⟨.resp ⟨i, some (.obj [(lit "description", .str d), (lit "messages", .arr ms)]), none⟩, ⟨_, rfl, ?_⟩, ?_⟩
  · rw [dispatch_prompt _ _ _ rfl h0]
    simp only [promptsGet, nameOf_call, hh, argsOf_call, hr]
    rw [if_neg]
    · simp [okay, afterwards, h2]
    · cases hs : s.strict with
      | false => simp
      | true => simp [hall (.inl hs)]
  · refine (Client.typedCall_success (v := .obj [(lit "description", .str d), (lit "messages", .arr ms)]) ⟨_, rfl, rfl, rfl⟩ (.inl rfl) (fun e => ?_)).trans rfl
    show (true && isArrOf isPromptMessageItem (.arr ms)) = true
    simpa [isArrOf] using hall (.inr e)

theorem ran_ret (l : List (JVal D)) : (Ends.ret l).ran = .ok l := rfl

/-- The answer to a whole read once the handler is known. -/
theorem read_answer (env : Env D H) (hu : Undisturbed env) (s : Srv D H) (i : RpcId) (strict : Bool) (uri : Bytes) (hn : uri ≠ []) (l : List (JVal D))
    (hv : s.strict = true ∨ strict = true → ∀ x ∈ l, Shape.TextContent x ∨ Shape.ResourceContents x)
    (hch : choose (readers env s uri) (templateReaders env s uri) uri = .direct (.ret l) ∨
      ∃ f vars, choose (readers env s uri) (templateReaders env s uri) uri = .template f vars ∧ f vars = .ret l)
    (hsv : Serves ((readers env s uri).map (fun e => (e.1, e.2.map Ends.ran)))
      ((templateReaders env s uri).map (fun e => (e.1, e.2.map (fun f v => (f v).ran)))) uri l) :
    ∃ o, Yields env s i "resources/read" (some (readParams uri none none)) o ∧ readResource strict o = some l := by
  obtain ⟨_, h1, h2⟩ := hu
  have huri : uriOf (some (readParams uri none none : JVal D)) = uri := rfl
  have hcall : readCall env s (some (readParams uri none none)) = some (.ret l) := by
    unfold readCall
    have hr : readable (some (readParams uri none none : JVal D)) = true := by
      unfold readable
      rw [huri]
      have ho : ((some (readParams uri none none : JVal D)).getD .null).intAt (lit "offset") = none := rfl
      have hl : ((some (readParams uri none none : JVal D)).getD .null).intAt (lit "length") = none := rfl
      rw [ho, hl]
      simp [hn]
    rw [if_pos hr, huri]
    rcases hch with h | ⟨f, vars, h, hf⟩
    · rw [h]
    · rw [h]; exact congrArg some hf
  have hb := handleRead_serves (cfg := s.readCfg) hn hsv none none (by simp) (by simp)
  have hval : s.strict = true ∨ strict = true → validateReadResourceResult (.obj ([(lit "contents", .arr l)] ++ metaField s.readCfg.ui (metaOf l))) = true := by
    intro e
    rw [readResult_valid, List.all_eq_true]
    intro x hx
    rw [isReadItem_iff, or_cons, or_one]
    exact hv e x hx
  have hbuilt : buildRead s.readCfg l none none = .ok (.obj ([(lit "contents", .arr l)] ++ metaField s.readCfg.ui (metaOf l))) := by
    unfold buildRead
    simp only [Option.isNone_none, Bool.and_self, if_true]
    rw [if_neg]
    intro h
    rw [Bool.and_eq_true] at h
    rw [hval (.inl h.1)] at h
    simp at h
  refine ⟨.resp ⟨i, some (.obj ([(lit "contents", .arr l)] ++ metaField s.readCfg.ui (metaOf l))), none⟩, ⟨_, rfl, ?_⟩, ?_⟩
  · rw [dispatch_read _ _ _ rfl]
    simp only [resourcesRead, hcall, huri, h1]
    rw [hb, hbuilt]
    simp [builtReply, ofReply, Reply.toResponse, afterwards, h2]
  · have hne : NotErrorLike (.obj ([(lit "contents", .arr l)] ++ metaField s.readCfg.ui (metaOf l)) : JVal D) := by
      left; simp only [JVal.get?]; exact readResult_other _ _ _ (by decide) (by decide)
    rw [show readResource strict _ = _ from Client.typedCall_success ⟨_, rfl, rfl, rfl⟩ hne (fun e => hval (.inr e))]
    unfold parseRead
    rw [arrAt_of (readResult_contents l _ _)]
    rfl

/-- **C68.** The handler registered for a URI is given the URI passed to `ReadResource`, and the typed read returns exactly the contents
it returned. -/
theorem C68_read_resource (env : Env D H) (hu : Undisturbed env) (s : Srv D H) (i : RpcId) (strict : Bool) (uri : Bytes) (hn : uri ≠ []) (h : H)
    (hh : AMap.get s.reg.resHandlers uri = some h) (hc : env.callable h = true) (l : List (JVal D)) (hr : env.read h uri Vars.empty = .ret l)
    (hv : s.strict = true ∨ strict = true → ∀ x ∈ l, Shape.TextContent x ∨ Shape.ResourceContents x) :
    ∃ o, Yields env s i "resources/read" (some (readParams uri none none)) o ∧ readResource strict o = some l := by
  have hg : AMap.get (readers env s uri) uri = some (some (.ret l)) := by
    unfold readers
    rw [get_map_val (fun x => if env.callable x then some (env.read x uri Vars.empty) else none), hh]
    simp [hc, hr]
  refine read_answer env hu s i strict uri hn l hv (.inl ((C23_resolution _ _ _).1 _ hg)) (.inl ((C23_resolution _ _ _).1 _ ?_))
  rw [get_map_val (fun x : Option (Ends (List (JVal D))) => x.map Ends.ran), hg]
  rfl

/-- **C68.** For a URI without a handler of its own and exactly one template that fits it, the handler of the template is given the URI
and values of the variables that turn the template into it, and the typed read returns exactly the contents it returned. -/
theorem C68_read_template (env : Env D H) (hu : Undisturbed env) (s : Srv D H) (i : RpcId) (strict : Bool) (uri : Bytes) (hn : uri ≠ []) (h : H)
    (hh : AMap.get s.reg.resHandlers uri = none) (pre post : List (Items.Template D × Option H)) (t : Items.Template D)
    (hreg : s.reg.templates = pre ++ (t, some h) :: post) (hfit : ∃ occ, Expands t.uriTemplate occ uri)
    (hothers : ∀ e ∈ pre ++ post, ∀ occ, ¬ Expands e.1.uriTemplate occ uri) (hc : env.callable h = true)
    (hv : ∀ vars l, env.read h uri vars = .ret l → s.strict = true ∨ strict = true → ∀ x ∈ l, Shape.TextContent x ∨ Shape.ResourceContents x) :
    ∃ vars occ, Expands t.uriTemplate occ uri ∧ (∀ p ∈ occ, (occ.map (·.1)).Nodup → vars p.1 = some p.2) ∧
      ∀ l, env.read h uri vars = .ret l →
        ∃ o, Yields env s i "resources/read" (some (readParams uri none none)) o ∧ readResource strict o = some l := by
  have hnone : ∀ e ∈ pre ++ post, (matchTemplate e.1.uriTemplate uri).isSome = false := by
    intro e he
    cases hm : matchTemplate e.1.uriTemplate uri with
    | none => rfl
    | some v =>
      obtain ⟨occ, ho, _⟩ := (matchTemplate_spec _ _).1 v hm
      exact absurd ho (hothers e he occ)
  obtain ⟨occ0, hocc0⟩ := hfit
  have hsome := C22_match_complete _ _ _ hocc0
  have hM : ∀ {T : Type} (g : Option H → Option T) (f : T), g (some h) = some f →
      Matching (s.reg.templates.map (fun e => (e.1.uriTemplate, g e.2))) uri = [(t.uriTemplate, some f)] := by
    intro T g f hg
    unfold Matching
    rw [hreg, List.map_append, List.map_cons, List.filter_append, List.filter_cons, hg]
    simp only [Option.isSome_some, hsome, Bool.and_self, if_true]
    have h1 : (pre.map (fun e => (e.1.uriTemplate, g e.2))).filter (fun e => e.2.isSome && (matchTemplate e.1 uri).isSome) = [] := by
      rw [List.filter_eq_nil_iff]
      intro e he
      obtain ⟨e', he', rfl⟩ := List.mem_map.1 he
      simp [hnone e' (List.mem_append_left _ he')]
    have h2 : (post.map (fun e => (e.1.uriTemplate, g e.2))).filter (fun e => e.2.isSome && (matchTemplate e.1 uri).isSome) = [] := by
      rw [List.filter_eq_nil_iff]
      intro e he
      obtain ⟨e', he', rfl⟩ := List.mem_map.1 he
      simp [hnone e' (List.mem_append_right _ he')]
    rw [h1, h2]; rfl
  have hg1 : AMap.get (readers env s uri) uri = none := by
    unfold readers
    rw [get_map_val (fun x => if env.callable x then some (env.read x uri Vars.empty) else none), hh]; rfl
  have hM1 : Matching (templateReaders env s uri) uri = [(t.uriTemplate, some (env.read h uri))] :=
    hM (templateReader env uri) (env.read h uri) (by simp [templateReader, hc])
  obtain ⟨vars, hm, hch⟩ := (C23_resolution (readers env s uri) (templateReaders env s uri) uri).2.2.1 hg1 _ _ hM1
  obtain ⟨occ, ho, _, hvals, _⟩ := C22_shortest_match _ _ _ hm
  refine ⟨vars, occ, ho, hvals, fun l hl => ?_⟩
  refine read_answer env hu s i strict uri hn l (hv vars l hl) (.inr ⟨_, vars, hch, hl⟩) (.inr ?_)
  have hg2 : AMap.get ((readers env s uri).map (fun e => (e.1, e.2.map Ends.ran))) uri = none := by
    rw [get_map_val (fun x : Option (Ends (List (JVal D))) => x.map Ends.ran), hg1]; rfl
  have hM2 : Matching ((templateReaders env s uri).map (fun e => (e.1, e.2.map (fun f v => (f v).ran)))) uri =
      [(t.uriTemplate, some (fun v => (env.read h uri v).ran))] := by
    unfold templateReaders
    rw [List.map_map]
    exact hM (fun o => (templateReader env uri o).map (fun f v => (f v).ran)) (fun v => (env.read h uri v).ran) (by simp [templateReader, hc])
  obtain ⟨vars', hm', hch'⟩ := (C23_resolution _ _ uri).2.2.1 hg2 _ _ hM2
  rw [hm] at hm'
  cases hm'
  exact ⟨_, vars, hch', by rw [hl]; rfl⟩

/-- **C68.** The sampling handler of a server is given the four members of the parameters it is documented to get, null when missing, and
the answer carries exactly what it returned. -/
theorem C68_sampling (env : Env D H) (hu : Undisturbed env) (s : Srv D H) (i : RpcId) (h : H) (hh : s.sampling = some h) (m : List (Bytes × JVal D))
    (v : JVal D) (hp : s.strict = true → Shape.CreateMessageParams (.obj m))
    (hr : env.sample h ⟨(AMap.get m (lit "messages")).getD .null, (AMap.get m (lit "modelPreferences")).getD .null,
      (AMap.get m (lit "systemPrompt")).getD .null, (AMap.get m (lit "includeContext")).getD .null⟩ = .ret v)
    (hv : s.strict = true → Shape.CreateMessageResult v) :
    Yields env s i "sampling/createMessage" (some (.obj m)) (.resp ⟨i, some v, none⟩) := by
  refine ⟨_, rfl, ?_⟩
  rw [dispatch_sampling _ _ _ rfl]
  have ha : sampleArgs (some (.obj m)) = ⟨(AMap.get m (lit "messages")).getD .null, (AMap.get m (lit "modelPreferences")).getD .null,
      (AMap.get m (lit "systemPrompt")).getD .null, (AMap.get m (lit "includeContext")).getD .null⟩ := rfl
  unfold createMessage
  simp only [hh, ha, hr, hu.2.1, Bool.false_eq_true, if_false]
  rw [if_neg, checked_ok (fun e => ((C41_others v).2.2.2).2 (hv e))]
  · rfl
  · cases hs : s.strict with
    | false => simp
    | true =>
      have := ((C41_others (.obj m)).2.2.1).2 (hp hs)
      simp [this]

/-- A handler that answers the value it is asked about, with one more value to come. -/
def echoEnv : Env Empty Nat :=
  { callable := fun _ => true, tool := fun _ a => .ret ⟨[makeText (lit "got"), makeText (lit "it")], true, some a, none⟩
    read := fun _ u _ => .ret [makeText u], prompt := fun _ _ => .ret (lit "d", []), complete := fun _ a => .ret ⟨[a.value, a.name], some 3, true⟩
    sample := fun _ a => .ret a.messages, cancelled0 := false, cancelled1 := false, cancelled2 := false, now := lit "now" }

def echoSrv : Srv Empty Nat :=
  { (Srv.init (lit "s") : Srv Empty Nat) with
    completion := some 0
    sampling := some 0
    reg := { (Reg.init : Reg Empty Nat) with toolHandlers := [(lit "t", 0)], resHandlers := [(lit "f://a", 0)], promptHandlers := [(lit "p", 0)] } }

example : echoSrv.completion = some 0 ∧ echoEnv.complete 0 ⟨.null, lit "arg", lit "va", none⟩ = .ret ⟨[lit "va", lit "arg"], some 3, true⟩ := ⟨rfl, rfl⟩
example : Undisturbed echoEnv ∧ AMap.get echoSrv.reg.toolHandlers (lit "t") = some 0 ∧ ¬ Declares echoSrv.reg (lit "t") "required" := by
  refine ⟨⟨rfl, rfl, rfl⟩, by decide, ?_⟩
  rintro ⟨_, _, h, _⟩
  cases h
example : AMap.get echoSrv.reg.resHandlers (lit "f://a") = some 0 ∧ AMap.get echoSrv.reg.promptHandlers (lit "p") = some 0 := by decide

/-! ### C71 -/

/-- **C71.** The task calls and `Ping` succeed only on an answer with a result and no error; on an error answer the exception carries the
message of the server. -/
theorem C71_task_calls (strict : Bool) (threw : Bytes) (o : Outcome D) :
    (∀ x, callToolTask strict threw o = .ok x → ∃ v, SucceededWith o v) ∧ (∀ x, getTask strict threw o = .ok x → ∃ v, SucceededWith o v) ∧
    (∀ x, listTasks strict threw o = .ok x → ∃ v, SucceededWith o v) ∧ (∀ x, cancelTask strict threw o = .ok x → ∃ v, SucceededWith o v) ∧
    (ping strict o = true → ∃ v, SucceededWith o v) ∧
    ∀ r e m, o = .resp r → r.error = some e → e.get? (lit "message") = some (.str m) →
      callToolTask strict threw o = .error m ∧ getTask strict threw o = .error m ∧ listTasks strict threw o = .error m ∧ cancelTask strict threw o = .error m := by
  have key : ∀ {T : Type} (valid : JVal D → Bool) (parse : JVal D → T) (f b : Bytes) (x : T),
      strictCall strict valid parse f b threw o = .ok x → ∃ v, SucceededWith o v := by
    intro T valid parse f b x h
    cases o with
    | threw => cases h
    | nul => cases h
    | resp r =>
      simp only [strictCall] at h
      cases he : r.error with
      | some e => rw [he] at h; cases h
      | none =>
        cases hr : r.result with
        | none => rw [he, hr] at h; cases h
        | some v => exact ⟨v, r, rfl, hr, he⟩
  refine ⟨fun x => key _ _ _ _ x, fun x => key _ _ _ _ x, fun x => key _ _ _ _ x, fun x => key _ _ _ _ x, ?_, ?_⟩
  · intro h
    cases o with
    | threw => cases h
    | nul => cases h
    | resp r =>
      simp only [ping] at h
      cases he : r.error with
      | some e => rw [he] at h; cases h
      | none =>
        cases hr : r.result with
        | none => rw [he, hr] at h; cases h
        | some v => exact ⟨v, r, rfl, hr, he⟩
  · intro r e m ho he hm
    have h1 : errorMessage e = m := by simp [errorMessage, JVal.strAt, hm, JVal.asStr]
    subst ho
    simp only [callToolTask, getTask, listTasks, cancelTask, strictCall, he, h1, and_self]

/-- **C71** for `Complete`, in part: what it returns with values in it comes from a success. Missing: an empty completion may also mean
that the server failed, see `C71_complete_counterexample`. -/
theorem C71_complete_partial (strict : Bool) (o : Outcome D) (c : Completion) (h : complete strict o = some c) (hc : c.values ≠ []) :
    ∃ r v, o = .resp r ∧ r.result = some v ∧ ∃ m cm vs, v = .obj m ∧ AMap.get m (lit "completion") = some (.obj cm) ∧
      AMap.get cm (lit "values") = some (.arr vs) ∧ ∀ x ∈ c.values, JVal.str x ∈ vs := by
  cases o with
  | threw => cases h
  | nul => cases h; exact absurd rfl hc
  | resp r =>
    simp only [complete] at h
    cases hr : r.result with
    | none => rw [hr] at h; cases h; exact absurd rfl hc
    | some v =>
      rw [hr] at h
      simp only at h
      split at h
      · cases h
      · cases h
        refine ⟨r, v, rfl, hr, ?_⟩
        unfold parseCompletion at hc ⊢
        cases ho : v.objAt (lit "completion") with
        | none => rw [ho] at hc; exact absurd rfl hc
        | some cm =>
          rw [ho] at hc
          obtain ⟨m, hm, hg⟩ := (objAt_iff _ _ _).1 ho
          cases ha : (JVal.obj cm).arrAt (lit "values") with
          | none => simp [ha] at hc
          | some vs =>
            refine ⟨m, cm, vs, hm, hg, ?_, ?_⟩
            · simp only [JVal.arrAt, JVal.get?] at ha
              cases hx : AMap.get cm (lit "values") with
              | none => rw [hx] at ha; cases ha
              | some x => rw [hx] at ha; cases x <;> simp_all [JVal.asArr]
            · intro x hx
              simp only [ha, Option.getD_some, List.mem_filterMap] at hx
              obtain ⟨y, hy, hxy⟩ := hx
              cases y <;> simp [JVal.asStr] at hxy
              subst hxy; exact hy

/-- **C71** is false for `Complete`: whenever the completion handler of the server throws, the call returns an empty completion as if the
handler had found nothing, in every mode. -/
theorem C71_complete_counterexample (env : Env D H) (s : Srv D H) (i : RpcId) (strict : Bool) (h : H) (hs : s.completion = some h)
    (a : CompleteArgs D) (w : Bytes) (hc : env.complete h a = .std w) :
    ∃ o, Yields env s i "completion/complete" (some (completeParams a)) o ∧ complete strict o = some ⟨[], none, false⟩ := by
  obtain ⟨m, hm, ha⟩ := completeArgs_params a
  refine ⟨.resp ⟨i, none, some (mkErrorObj Code.internalError w none)⟩, ⟨_, rfl, ?_⟩, rfl⟩
  rw [dispatch_complete _ _ _ rfl]
  simp only [completeRequest, hs, hm, ha, hc]
  rfl

example : ({ echoEnv with complete := fun _ _ => .std (lit "boom") } : Env Empty Nat).complete 0 ⟨.null, [], [], none⟩ = .std (lit "boom") := rfl

/-- **C71** is false for `GetTaskResult`: an error answer with error object `e` and a success whose result is `e` are the same to the
caller when the kind of the task is not known or the client is not strict. -/
theorem C71_task_result_counterexample (strict : Bool) (kind : Option Kind) (i : RpcId) (e : JVal D) (h : strict = false ∨ kind = none) :
    taskResult strict kind (.resp ⟨i, none, some e⟩) = some e ∧ taskResult strict kind (.resp ⟨i, some e, none⟩) = some e := by
  refine ⟨rfl, ?_⟩
  rcases h with rfl | rfl
  · cases kind <;> rfl
  · rfl

/-! ### C72 -/

theorem serTask_valid (t : Task) : validateTask (serTask t : JVal D) = true := by
  obtain ⟨a, b, c, d, e, f, g⟩ := t
  cases c <;> cases f <;> cases g <;> rfl

theorem serCreate_valid (t : Task) (m : Option (JVal D)) : validateCreateTaskResult (serCreate t m) = true := by
  have h := serTask_valid (D := D) t
  cases m <;> exact h

theorem dispatch_getTask (env : Env D H) (s : Srv D H) (req : Request D) (h : req.method = lit "tasks/get") :
    dispatch env s req = (checkedReply s.strict validateTask (lit "Invalid task result shape") req.id (handleGet s.tasks req.params), s) := by
  unfold dispatch
  rw [h]
  rw [if_neg (by decide), if_neg (by decide), if_neg (by decide), if_neg (by decide), if_pos rfl]

theorem dispatch_cancelTask (env : Env D H) (s : Srv D H) (req : Request D) (h : req.method = lit "tasks/cancel") :
    dispatch env s req =
      (checkedReply s.strict validateTask (lit "Invalid task result shape") req.id
        (handleCancel s.tasks (match s.caps.tasks with | some t => t.cancel | none => false) req.params env.now).1,
       { s with tasks := (handleCancel s.tasks (match s.caps.tasks with | some t => t.cancel | none => false) req.params env.now).2 }) := by
  unfold dispatch
  rw [h]
  rw [if_neg (by decide), if_neg (by decide), if_neg (by decide), if_neg (by decide), if_neg (by decide), if_neg (by decide), if_neg (by decide),
    if_pos rfl]
  rfl

/-- **C72.** `GetTask` returns exactly the task the server has under that id; for an id the server does not know it throws the message
"Unknown task". -/
theorem C72_get_task (env : Env D H) (s : Srv D H) (i : RpcId) (strict : Bool) (threw : Bytes) (id : Bytes) :
    ∃ o, Yields env s i "tasks/get" (some (taskParams id)) o ∧
      (∀ t, s.tasks.getTask id = some t → getTask strict threw o = .ok t) ∧
      (s.tasks.getTask id = none → getTask strict threw o = .error (lit "Unknown task")) := by
  have hp : taskIdParam (some (taskParams id : JVal D)) = some id := rfl
  cases hg : s.tasks.getTask id with
  | none =>
    refine ⟨.resp ⟨i, none, some (mkErrorObj Code.invalidParams (lit "Unknown task") none)⟩, ⟨_, rfl, ?_⟩, (fun t h => by cases h), fun _ => rfl⟩
    rw [dispatch_getTask _ _ _ rfl]
    simp only [handleGet, hp, hg, checkedReply]
    rfl
  | some t =>
    refine ⟨.resp ⟨i, some (serTask t), none⟩, ⟨_, rfl, ?_⟩, ?_, (fun h => by cases h)⟩
    · rw [dispatch_getTask _ _ _ rfl]
      simp only [handleGet, hp, hg, checkedReply]
      rw [checked_ok (fun _ => serTask_valid t)]; rfl
    · intro t' ht
      cases ht
      simp [getTask, strictCall, serTask_valid, serTask_parse]

/-- **C72.** `CallToolTask` on a tool that takes tasks returns a task that the server has from then on under its id, working, with the
time to live that was asked for, and a worker that will call the handler of the tool with exactly the arguments passed. -/
theorem C72_call_tool_task (env : Env D H) (hu : Undisturbed env) (s : Srv D H) (i : RpcId) (strict : Bool) (threw name : Bytes) (hn : name ≠ []) (h : H)
    (hh : AMap.get s.reg.toolHandlers name = some h) (hc : env.callable h = true)
    (hd : Declares s.reg name "required" ∨ Declares s.reg name "optional") (args : JVal D) (ttl : Option Int) :
    ∃ o t, Yields env s i "tools/call" (some (taskCallParams name args ttl)) o ∧ callToolTask strict threw o = .ok (t, none) ∧
      t.status = lit "working" ∧ t.ttl = ttl ∧
      (dispatch env s ⟨i, lit "tools/call", some (taskCallParams name args ttl)⟩).2.tasks.getTask t.taskId = some t ∧
      (t.taskId, h, args) ∈ (dispatch env s ⟨i, lit "tools/call", some (taskCallParams name args ttl)⟩).2.workers := by
  have hsup : supportOf (AMap.get s.reg.toolMeta name) ≠ .forbidden := by
    intro e
    rcases hd with h | h
    · rw [← support_required, e] at h; cases h
    · rw [← support_optional, e] at h; cases h
  have hx : toolsCall env s ⟨i, lit "tools/call", some (taskCallParams name args ttl)⟩ =
      (checked s.strict validateCreateTaskResult (lit "Invalid task creation result shape") i
        (serCreate (s.tasks.create .toolCall ttl env.now).1 none),
       { s with tasks := (s.tasks.create .toolCall ttl env.now).2
                workers := s.workers ++ [((s.tasks.create .toolCall ttl env.now).1.taskId, h, args)]
                runs := s.runs ++ [.task name args (s.tasks.create .toolCall ttl env.now).1.taskId] }) := by
    unfold toolsCall
    simp only [nameOf_taskCall, hn, if_false, hh, hc, if_true, taskMeta_taskCall, argsOf_taskCall]
  refine ⟨.resp ⟨i, some (serCreate (s.tasks.create .toolCall ttl env.now).1 none), none⟩, (s.tasks.create .toolCall ttl env.now).1, ⟨_, rfl, ?_⟩, ?_,
    rfl, rfl, ?_, ?_⟩
  · rw [dispatch_toolsCall _ _ _ rfl, hx]
    simp only
    rw [checked_ok (fun _ => serCreate_valid _ _)]
    simp [okay, afterwards, hu.2.2]
  · simp only [callToolTask, strictCall, serCreate_valid, Bool.not_true, Bool.and_false, Bool.false_eq_true, if_false]
    exact congrArg Except.ok (Prod.ext (serTask_parse _) rfl)
  · rw [dispatch_toolsCall _ _ _ rfl, hx]
    simp only [Store.getTask, Store.create]
    rw [AMap.get_put_self]; rfl
  · rw [dispatch_toolsCall _ _ _ rfl, hx]
    simp

/-- **C72.** `CancelTask` on a task that has not ended, at a server that lets tasks be cancelled, returns that task as cancelled, and the
server has it so from then on; on an ended or unknown task it throws and changes nothing. -/
theorem C72_cancel_task (env : Env D H) (s : Srv D H) (tc : ServerTasks) (hcap : s.caps.tasks = some tc) (hallow : tc.cancel = true) (i : RpcId)
    (strict : Bool) (threw : Bytes) (id : Bytes) :
    ∃ o, Yields env s i "tasks/cancel" (some (taskParams id)) o ∧
      (∀ r, AMap.get s.tasks.records id = some r → r.payload = none → isTerminal r.task.status = false →
        ∃ t, cancelTask strict threw o = .ok t ∧ t.status = lit "cancelled" ∧
          (dispatch env s ⟨i, lit "tasks/cancel", some (taskParams id)⟩).2.tasks.getTask id = some t) ∧
      ((∀ r, AMap.get s.tasks.records id = some r → r.payload.isSome ∨ isTerminal r.task.status = true) →
        cancelTask strict threw o = .error (lit "Task is not cancellable") ∧
          (dispatch env s ⟨i, lit "tasks/cancel", some (taskParams id)⟩).2.tasks = s.tasks) := by
  have hp : taskIdParam (some (taskParams id : JVal D)) = some id := rfl
  have hd := dispatch_cancelTask env s ⟨i, lit "tasks/cancel", some (taskParams id)⟩ rfl
  simp only [hcap, hallow] at hd
  by_cases hf : ∀ r, AMap.get s.tasks.records id = some r → r.payload.isSome ∨ isTerminal r.task.status = true
  · have hc := C18_cancel_finished_refused s.tasks (some (taskParams id)) id env.now hp hf
    rw [hc] at hd
    refine ⟨.resp ⟨i, none, some (mkErrorObj (-32602) (lit "Task is not cancellable") none)⟩, ⟨_, rfl, by rw [hd]; rfl⟩, ?_, fun _ => ⟨rfl, by rw [hd]⟩⟩
    intro r hr h1 h2
    rcases hf r hr with h | h
    · rw [h1] at h; cases h
    · rw [h2] at h; cases h
  · obtain ⟨r, hr⟩ := Classical.not_forall.1 hf
    obtain ⟨hr, hnot⟩ := Classical.not_imp.1 hr
    have h1 : r.payload = none := by
      cases hpl : r.payload with
      | none => rfl
      | some x => exact absurd (.inl (by rw [hpl]; rfl)) hnot
    have h2 : isTerminal r.task.status = false := by
      cases ht : isTerminal r.task.status with
      | false => rfl
      | true => exact absurd (.inr ht) hnot
    obtain ⟨h3, ⟨t, h4, h5, h6⟩, _⟩ := (C18_transition_effect s.tasks id r hr ⟨h1, h2⟩ [] none true (mkErrorObj Code.internalError (lit "Cancelled") none) env.now).2
    have hc : handleCancel s.tasks true (some (taskParams id)) env.now =
        (.ok (serTask t), (s.tasks.cancel id (mkErrorObj Code.internalError (lit "Cancelled") none) env.now).2.2) := by
      unfold handleCancel
      rw [if_pos rfl, hp]
      have : s.tasks.cancel id (mkErrorObj Code.internalError (lit "Cancelled") none) env.now =
          (true, some t, (s.tasks.cancel id (mkErrorObj Code.internalError (lit "Cancelled") none) env.now).2.2) :=
        Prod.ext h3 (Prod.ext h5 rfl)
      simp only
      rw [this]
    rw [hc] at hd
    refine ⟨.resp ⟨i, some (serTask t), none⟩, ⟨_, rfl, ?_⟩, ?_, fun h => absurd h hf⟩
    · rw [hd]
      simp only [checkedReply]
      rw [checked_ok (fun _ => serTask_valid t)]; rfl
    · intro _ _ _ _
      refine ⟨t, by simp [cancelTask, strictCall, serTask_valid, serTask_parse], h6, ?_⟩
      rw [hd]; exact h4

theorem dispatch_listTasks (env : Env D H) (s : Srv D H) (req : Request D) (h : req.method = lit "tasks/list") :
    dispatch env s req =
      (checkedReply s.strict validateTasksListResult (lit "Invalid tasks/list result shape") req.id (handleList s.tasks req.params), s) := by
  unfold dispatch
  rw [h]
  rw [if_neg (by decide), if_neg (by decide), if_neg (by decide), if_neg (by decide), if_neg (by decide), if_pos rfl]

theorem serList_valid (ts : List Task) (c : Option Bytes) : validateTasksListResult (Tasks.serList ts c : JVal D) = true := by
  have h : (ts.map (serTask (D := D))).all validateTask = true := by
    rw [List.all_eq_true]
    intro x hx
    obtain ⟨t, _, rfl⟩ := List.mem_map.1 hx
    exact serTask_valid t
  have h2 : isArrOf validateTask (.arr (ts.map (serTask (D := D)))) = true := h
  cases c with
  | none => exact Bool.and_eq_true_iff.2 ⟨h2, rfl⟩
  | some c => exact Bool.and_eq_true_iff.2 ⟨h2, rfl⟩

/-- **C72.** `ListTasks()` of the client returns every task the server has, each once and as it is now, in the order they were created. -/
theorem C72_list_tasks (name : Bytes) (ops : List (SrvOp D H)) (hn : ops.length + 2 < 2 ^ 64) (env : Env D H) (i : RpcId) (strict : Bool) (threw : Bytes) :
    ∃ o ts, Yields env ((Srv.init name).run ops) i "tasks/list" (listRequest none none) o ∧ listTasks strict threw o = .ok (ts, none) ∧
      (ts.map (·.taskId)).Nodup ∧ ts.map (·.taskId) = ((Srv.init name).run ops : Srv D H).tasks.order ∧
      ∀ t, t ∈ ts ↔ ((Srv.init name).run ops : Srv D H).tasks.getTask t.taskId = some t := by
  obtain ⟨n, _, hi⟩ := (srvGood_run (ops := ops) (srvGood_init name) (by omega)).store
  generalize ((Srv.init name).run ops : Srv D H) = s at hi ⊢
  have hl : s.tasks.list 0 none = (s.tasks.order.filterMap s.tasks.getTask, none) := by
    unfold Store.list
    by_cases h0 : 0 ≥ s.tasks.order.length
    · rw [if_pos h0]
      have : s.tasks.order = [] := List.length_eq_zero_iff.1 (by omega)
      rw [this]; rfl
    · rw [if_neg h0]
      simp only [pageEnd, List.drop_zero, List.take_length, Option.isSome_none, Bool.false_and, Bool.false_eq_true, if_false]
      rfl
  have hids : ∀ l : List Bytes, (∀ x ∈ l, x ∈ s.tasks.order) → (l.filterMap s.tasks.getTask).map (·.taskId) = l := by
    intro l
    induction l with
    | nil => intro _; rfl
    | cons x l ih =>
      intro hx
      have h1 := (hi.keys x).2 (hx x (List.mem_cons_self ..))
      cases hr : AMap.get s.tasks.records x with
      | none => rw [hr] at h1; cases h1
      | some r =>
        have h2 : s.tasks.getTask x = some r.task := by simp [Store.getTask, hr]
        rw [List.filterMap_cons_some h2, List.map_cons, ih (fun y hy => hx y (List.mem_cons_of_mem _ hy)), hi.self x r hr]
  have hord := hids _ (fun x h => h)
  refine ⟨.resp ⟨i, some (Tasks.serList (s.tasks.order.filterMap s.tasks.getTask) none), none⟩, s.tasks.order.filterMap s.tasks.getTask, ⟨_, rfl, ?_⟩, ?_, ?_,
    hord, ?_⟩
  · rw [dispatch_listTasks _ _ _ rfl]
    have h1 : handleList s.tasks (listRequest none none) = .ok (Tasks.serList (s.tasks.order.filterMap s.tasks.getTask) none) := by
      show Reply.ok (Tasks.serList (s.tasks.list 0 none).1 (s.tasks.list 0 none).2) = _
      rw [hl]
    simp only [h1, checkedReply]
    rw [checked_ok (fun _ => serList_valid _ _)]; rfl
  · simp [listTasks, strictCall, serList_valid, serList_parse]
  · rw [hord, hi.order]
    refine List.Pairwise.map idOf ?_ List.nodup_range
    intro a b hab h
    exact hab (idOf_inj h)
  · intro t
    rw [List.mem_filterMap]
    constructor
    · rintro ⟨x, hx, ht⟩
      unfold Store.getTask at ht ⊢
      cases hr : AMap.get s.tasks.records x with
      | none => rw [hr] at ht; cases ht
      | some r =>
        rw [hr] at ht
        cases ht
        rw [hi.self x r hr, hr]; rfl
    · intro ht
      refine ⟨t.taskId, (hi.keys _).1 ?_, ht⟩
      unfold Store.getTask at ht
      cases hr : AMap.get s.tasks.records t.taskId with
      | none => rw [hr] at ht; cases ht
      | some r => rfl

/-- A server with a tool that takes tasks, one task running and one cancelled. -/
def busySrv : Srv Empty Nat :=
  { echoSrv with
    reg := { echoSrv.reg with
      toolMeta := [(lit "t", ⟨lit "t", none, [], none, .null, none, none, some (.obj [(lit "taskSupport", .str (lit "optional"))]), none⟩)] }
    caps := { (echoSrv.caps) with tasks := some ⟨true, true, true⟩ }
    tasks := Store.init.run [.create .toolCall (some 5) (lit "now"), .create .toolCall none (lit "now"), .cancel (lit "task-2") .null (lit "now")] }

example : (busySrv.tasks.getTask (lit "task-1")).map (·.status) = some (lit "working") ∧
    (busySrv.tasks.getTask (lit "task-2")).map (·.status) = some (lit "cancelled") := by decide +kernel
example : Undisturbed echoEnv ∧ AMap.get busySrv.reg.toolHandlers (lit "t") = some 0 ∧ Declares busySrv.reg (lit "t") "optional" :=
  ⟨⟨rfl, rfl, rfl⟩, rfl, _, _, rfl, rfl, rfl⟩
example : busySrv.caps.tasks = some ⟨true, true, true⟩ := rfl

end Verif
