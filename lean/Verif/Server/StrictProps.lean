import Verif.Server.TaskFlowProps

/-! C67: a strict server never sends a result of the wrong shape. -/

set_option linter.unusedSectionVars false

namespace Verif

open Server Tasks Resource Validation
open Caps hiding Obj

variable {D H : Type}

/-- The documented shapes of the results, by method. -/
def resultShapes : List (String × Shape.Shape D) :=
  [("tools/list", Shape.ToolsList), ("resources/list", Shape.ResourcesList), ("resources/templates/list", Shape.TemplatesList),
   ("prompts/list", Shape.PromptsList), ("resources/read", Shape.ReadResourceResult), ("prompts/get", Shape.GetPromptResult),
   ("completion/complete", Shape.CompletionResult), ("sampling/createMessage", Shape.CreateMessageResult), ("tasks/get", Shape.Task),
   ("tasks/cancel", Shape.Task), ("tasks/list", Shape.TasksListResult), ("tasks/result", Shape.CallToolResult)]

/-- A successful answer meets `p`. -/
def Shaped (p : Shape.Shape D) (o : Out D) : Prop := ∀ r v, o = .answer r → r.result = some v → p v

theorem shaped_failed (p : Shape.Shape D) (id : RpcId) (c : Int) (m : Bytes) : Shaped p (failed id c m) := by
  intro r v h hv; cases h; cases hv

theorem shaped_checked {p : Shape.Shape D} {f : JVal D → Bool} (hf : ∀ v, f v = true → p v) (m : Bytes) (id : RpcId) (v : JVal D) :
    Shaped p (checked true f m id v) := by
  unfold checked
  split
  · exact shaped_failed _ _ _ _
  · rename_i h
    intro r w hr hw
    cases hr; cases hw
    apply hf
    cases hx : f v with
    | true => rfl
    | false => rw [hx] at h; exact absurd rfl h

theorem shaped_checkedReply {p : Shape.Shape D} {f : JVal D → Bool} (hf : ∀ v, f v = true → p v) (m : Bytes) (id : RpcId) (r : Reply D) :
    Shaped p (checkedReply true f m id r) := by
  cases r with
  | ok v => exact shaped_checked hf _ _ _
  | fail c m => exact shaped_failed _ _ _ _

theorem shaped_ofReply {p : Shape.Shape D} (id : RpcId) (r : Reply D) (h : ∀ v, r = .ok v → p v) : Shaped p (ofReply id r) := by
  cases r with
  | ok v => intro r w hr hw; cases hr; cases hw; exact h _ rfl
  | fail c m => exact shaped_failed _ _ _ _

theorem shaped_afterwards {p : Shape.Shape D} (c : Bool) (id : RpcId) (o : Out D) (h : Shaped p o) : Shaped p (afterwards c id o) := by
  cases o with
  | answer r =>
    unfold afterwards; simp only
    split
    · exact shaped_failed _ _ _ _
    · exact h
  | escaped => intro r v hr; cases hr
  | blocked => intro r v hr; cases hr

theorem listReply_shaped {T : Type} {p : Shape.Shape D} {g : JVal D → Bool} (hg : ∀ v, g v = true → p v) (key : Bytes) (f : T → JVal D) (m : Bytes)
    (l : List T) (q : Option (JVal D)) (v : JVal D) (h : listReply key f g m true l q = .ok v) : p v := by
  unfold listReply at h
  simp only at h
  split at h
  · cases h
  · rename_i hx
    cases h
    apply hg
    cases hy : g (pageJson key f l (paging q)) with
    | true => rfl
    | false => rw [hy] at hx; exact absurd rfl hx

theorem handleRead_shaped (cfg : ReadCfg D) (hc : cfg.strict = true) (hs : List (Bytes × Option (Ran D))) (ts : List (Bytes × Option (Vars → Ran D))) (c : Bool)
    (q : Option (JVal D)) (v : JVal D) (h : handleRead cfg hs ts c q = .ok v) : Shape.ReadResourceResult v := by
  have fin : ∀ (r : Ran D) (o l : Option Int), (match r with
      | .error e => Reply.fail Code.internalError e
      | .ok contents => if c then .fail Code.internalError (lit "Cancelled") else builtReply (buildRead cfg contents o l)) = .ok v → Shape.ReadResourceResult v := by
    intro r o l h
    split at h
    · cases h
    · split at h
      · cases h
      · rename_i contents _
        unfold buildRead at h
        simp only at h
        split at h
        · cases h
        · split at h
          · cases h
          · rename_i hx
            cases h
            rw [← C41_read_resource_result]
            rw [hc] at hx
            simpa using hx
  unfold handleRead at h
  simp only at h
  split at h
  · cases h
  · split at h
    · cases h
    · split at h
      · cases h
      · split at h
        · cases h
        · cases h
        · exact fin _ _ _ h
        · exact fin _ _ _ h
        · cases h

/-- The only kind of task a server creates. -/
theorem reach_kind (name : Bytes) (ops : List (SrvOp D H)) (hn : ops.length + 1 < 2 ^ 64) (id : Bytes) (r : Record D)
    (h : AMap.get ((Srv.init name : Srv D H).run ops).tasks.records id = some r) : r.kind = .toolCall :=
  ((srvGood_reach name ops hn).kind id r h).1

theorem prompts_shaped (env : Env D H) (s : Srv D H) (hs : s.strict = true) (req : Request D) : Shaped Shape.GetPromptResult (promptsGet env s req) := by
  unfold promptsGet
  split
  · exact shaped_failed _ _ _ _
  · split
    · exact shaped_failed _ _ _ _
    · split
      · intro r v h; cases h
      · intro r v h; cases h
      · exact shaped_failed _ _ _ _
      · split
        · exact shaped_failed _ _ _ _
        · rename_i a _ hx
          intro r v hr hv
          cases hr; cases hv
          rw [← C41_get_prompt_result]
          rw [hs] at hx
          simp only [Bool.true_and, Bool.not_eq_true', Bool.not_eq_false] at hx
          have hx' : a.2.all isPromptMessageItem = true := by simpa using hx
          show validateGetPromptResult (.obj [(lit "description", .str a.1), (lit "messages", .arr a.2)]) = true
          rw [show validateGetPromptResult (.obj [(lit "description", (.str a.1 : JVal D)), (lit "messages", .arr a.2)]) = (true && a.2.all isPromptMessageItem) from rfl, hx']
          rfl

/-- **C67.** While the server is in strict mode, every result it sends for one of these methods has the documented shape, whatever the
handlers return, whatever was registered, and whatever the request says. -/
theorem C67_strict_results (name : Bytes) (ops : List (SrvOp D H)) (hn : ops.length + 1 < 2 ^ 64) (env : Env D H) (req : Request D)
    (r : Response D) (v : JVal D) (s' : Srv D H) (c : String) (p : Shape.Shape D) (hc : (c, p) ∈ (resultShapes : List (String × Shape.Shape D)))
    (hm : req.method = lit c) :
    let s := (Srv.init name : Srv D H).run ops
    s.strict = true → dispatch env s req = (.answer r, s') → r.result = some v → p v := by
  intro s hs h hv
  have key : Shaped p (dispatch env s req).1 := by
    simp only [resultShapes, List.mem_cons, Prod.mk.injEq, List.not_mem_nil, or_false] at hc
    unfold dispatch
    rw [hm]
    rcases hc with ⟨rfl, rfl⟩ | ⟨rfl, rfl⟩ | ⟨rfl, rfl⟩ | ⟨rfl, rfl⟩ | ⟨rfl, rfl⟩ | ⟨rfl, rfl⟩ | ⟨rfl, rfl⟩ | ⟨rfl, rfl⟩ | ⟨rfl, rfl⟩ | ⟨rfl, rfl⟩ | ⟨rfl, rfl⟩ | ⟨rfl, rfl⟩
    · simp only [(by decide : lit "tools/list" ≠ lit "ping"), (by decide : lit "tools/list" ≠ lit "initialize"),
        (by decide : lit "tools/list" ≠ lit "logging/setLevel"), if_false, if_true, hs]
      exact shaped_ofReply _ _ (fun v h => listReply_shaped (fun v => (C41_listings v).1.1) _ _ _ _ _ v h)
    · rw [if_neg (by decide), if_neg (by decide), if_neg (by decide), if_neg (by decide), if_neg (by decide), if_neg (by decide), if_neg (by decide),
        if_neg (by decide), if_neg (by decide), if_neg (by decide), if_pos rfl, hs]
      exact shaped_ofReply _ _ (fun v h => listReply_shaped (fun v => (C41_listings v).2.1.1) _ _ _ _ _ v h)
    · rw [if_neg (by decide), if_neg (by decide), if_neg (by decide), if_neg (by decide), if_neg (by decide), if_neg (by decide), if_neg (by decide),
        if_neg (by decide), if_neg (by decide), if_neg (by decide), if_neg (by decide), if_pos rfl, hs]
      exact shaped_ofReply _ _ (fun v h => listReply_shaped (fun v => (C41_listings v).2.2.1.1) _ _ _ _ _ v h)
    · rw [if_neg (by decide), if_neg (by decide), if_neg (by decide), if_neg (by decide), if_neg (by decide), if_neg (by decide), if_neg (by decide),
        if_neg (by decide), if_neg (by decide), if_neg (by decide), if_neg (by decide), if_neg (by decide), if_neg (by decide), if_neg (by decide),
        if_neg (by decide), if_neg (by decide), if_pos rfl, hs]
      exact shaped_ofReply _ _ (fun v h => listReply_shaped (fun v => (C41_listings v).2.2.2.1) _ _ _ _ _ v h)
    · rw [if_neg (by decide), if_neg (by decide), if_neg (by decide), if_neg (by decide), if_neg (by decide), if_neg (by decide), if_neg (by decide),
        if_neg (by decide), if_neg (by decide), if_neg (by decide), if_neg (by decide), if_neg (by decide), if_neg (by decide), if_neg (by decide),
        if_neg (by decide), if_pos rfl]
      apply shaped_afterwards
      unfold resourcesRead
      split
      · intro r v h; cases h
      · intro r v h; cases h
      · exact shaped_ofReply _ _ (fun v h => handleRead_shaped _ hs _ _ _ _ v h)
    · rw [if_neg (by decide), if_neg (by decide), if_neg (by decide), if_neg (by decide), if_neg (by decide), if_neg (by decide), if_neg (by decide),
        if_neg (by decide), if_neg (by decide), if_neg (by decide), if_neg (by decide), if_neg (by decide), if_neg (by decide), if_neg (by decide),
        if_neg (by decide), if_neg (by decide), if_neg (by decide), if_pos rfl]
      simp only
      split
      · exact shaped_failed _ _ _ _
      · exact shaped_afterwards _ _ _ (prompts_shaped env s hs req)
    · rw [if_neg (by decide), if_neg (by decide), if_neg (by decide), if_neg (by decide), if_neg (by decide), if_neg (by decide), if_neg (by decide),
        if_neg (by decide), if_neg (by decide), if_pos rfl]
      simp only
      unfold completeRequest
      rw [hs]
      split
      · exact shaped_failed _ _ _ _
      · split
        · split
          · exact shaped_failed _ _ _ _
          · split
            · intro r v h; cases h
            · intro r v h; cases h
            · exact shaped_failed _ _ _ _
            · exact shaped_checked (fun v => (C41_others v).1.1) _ _ _
        · exact shaped_failed _ _ _ _
    · rw [if_neg (by decide), if_neg (by decide), if_neg (by decide), if_neg (by decide), if_neg (by decide), if_neg (by decide), if_neg (by decide),
        if_neg (by decide), if_neg (by decide), if_neg (by decide), if_neg (by decide), if_neg (by decide), if_neg (by decide), if_neg (by decide),
        if_pos rfl]
      simp only
      unfold createMessage
      rw [hs]
      split
      · exact shaped_failed _ _ _ _
      · split
        · exact shaped_failed _ _ _ _
        · split
          · intro r v h; cases h
          · intro r v h; cases h
          · exact shaped_failed _ _ _ _
          · split
            · exact shaped_failed _ _ _ _
            · exact shaped_checked (fun v => (C41_others v).2.2.2.1) _ _ _
    · rw [if_neg (by decide), if_neg (by decide), if_neg (by decide), if_neg (by decide), if_pos rfl, hs]
      exact shaped_checkedReply (fun v => (C41_tasks v).1.1) _ _ _
    · rw [if_neg (by decide), if_neg (by decide), if_neg (by decide), if_neg (by decide), if_neg (by decide), if_neg (by decide), if_neg (by decide),
        if_pos rfl, hs]
      exact shaped_checkedReply (fun v => (C41_tasks v).1.1) _ _ _
    · rw [if_neg (by decide), if_neg (by decide), if_neg (by decide), if_neg (by decide), if_neg (by decide), if_pos rfl, hs]
      exact shaped_checkedReply (fun v => (C41_tasks v).2.2.1) _ _ _
    · rw [if_neg (by decide), if_neg (by decide), if_neg (by decide), if_neg (by decide), if_neg (by decide), if_neg (by decide), if_pos rfl]
      simp only
      unfold tasksResult
      split
      · exact shaped_failed _ _ _ _
      · rename_i id _
        split
        · exact shaped_failed _ _ _ _
        · intro r v h; cases h
        · intro r v h hv; cases h; cases hv
        · rename_i q hq
          split
          · rename_i rec hrec
            rw [hs]
            refine shaped_checked (f := validFor rec.kind) ?_ _ _ _
            rw [reach_kind name ops hn id rec hrec]
            exact fun v => (C41_call_tool_result v).1
          · rename_i hrec
            exfalso
            unfold Store.wait at hq
            rw [hrec] at hq; cases hq
  exact key r v (by rw [h]) hv

/-- **C67.** The same for tool calls: a tool result, or, if the request asks for a task, a task creation result. -/
theorem C67_strict_tools (env : Env D H) (s s' : Srv D H) (hs : s.strict = true) (req : Request D) (r : Response D) (v : JVal D)
    (hm : req.method = lit "tools/call") (h : dispatch env s req = (.answer r, s')) (hv : r.result = some v) :
    (¬ AsksTask req → Shape.CallToolResult v) ∧ (AsksTask req → Shape.CreateTaskResult v) := by
  rw [dispatch_tools env s req hm] at h
  have e1 : afterwards env.cancelled2 req.id (toolsCall env s req).1 = .answer r := (Prod.mk.inj h).1
  rw [← taskMeta_iff]
  have key : Shaped (fun v => (¬ (taskMeta req.params).isSome = true → Shape.CallToolResult v) ∧ ((taskMeta req.params).isSome = true → Shape.CreateTaskResult v))
      (toolsCall env s req).1 := by
    unfold toolsCall
    simp only
    split
    · exact shaped_failed _ _ _ _
    · split
      · exact shaped_failed _ _ _ _
      · split
        · cases ht : taskMeta req.params with
          | none =>
            have : ∀ a, Shaped (fun v => (¬ (none : Option (Option Int)).isSome = true → Shape.CallToolResult v) ∧ ((none : Option (Option Int)).isSome = true → Shape.CreateTaskResult v))
                (toolSync env s.strict req.id a (argsOf req.params)) := by
              intro a
              unfold toolSync
              split
              · intro r v h; cases h
              · intro r v h; cases h
              · exact shaped_failed _ _ _ _
              · split
                · exact shaped_failed _ _ _ _
                · rw [hs]
                  exact shaped_checked (fun v h => ⟨fun _ => (C41_call_tool_result v).1 h, fun h => by cases h⟩) _ _ _
            cases supportOf (AMap.get s.reg.toolMeta (nameOf req.params)) with
            | required => exact shaped_failed _ _ _ _
            | optional => exact this _
            | forbidden => exact this _
          | some ttl =>
            have : ∀ x m, Shaped (fun v => (¬ (some ttl).isSome = true → Shape.CallToolResult v) ∧ ((some ttl).isSome = true → Shape.CreateTaskResult v))
                (checked s.strict validateCreateTaskResult m req.id x : Out D) := by
              intro x m
              rw [hs]
              exact shaped_checked (fun v h => ⟨fun h => absurd rfl h, fun _ => (C41_tasks v).2.1.1 h⟩) _ _ _
            cases supportOf (AMap.get s.reg.toolMeta (nameOf req.params)) with
            | required => exact this _ _
            | optional => exact this _ _
            | forbidden => exact shaped_failed _ _ _ _
        · exact shaped_failed _ _ _ _
  exact shaped_afterwards _ _ _ key r v e1 hv

/-- A strict server with a prompt, and user code that returns a message without content: the request is answered with an error; with a
proper message it succeeds. -/
example : let s := ((Srv.init (lit "s")).run [.setStrict true, .register false (.promptNamed (lit "p") 0)] : Srv Empty Nat)
    s.strict = true ∧ ((dispatch { (calmEnv : Env Empty Nat) with prompt := fun _ _ => .ret (lit "d", [makeText (lit "hi")]) } s
      ⟨.int 1, lit "prompts/get", some (.obj [(lit "name", .str (lit "p"))])⟩).1 matches .answer ⟨_, some _, none⟩) ∧
    ((dispatch { (calmEnv : Env Empty Nat) with prompt := fun _ _ => .ret (lit "d", [.null]) } s
      ⟨.int 1, lit "prompts/get", some (.obj [(lit "name", .str (lit "p"))])⟩).1 matches .answer ⟨_, none, some _⟩) := by
  refine ⟨rfl, ?_, ?_⟩ <;> decide +kernel

end Verif
