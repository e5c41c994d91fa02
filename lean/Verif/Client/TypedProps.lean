import Verif.Client.TypedModel
import Verif.Validation.Props

/-! C61: a typed call reports success exactly when the server reported success. -/

namespace Verif

open Client Validation

variable {D : Type}

/-! ### Spec -/

/-- The response is a success carrying `v`. -/
def SucceededWith (o : Outcome D) (v : JVal D) : Prop := ∃ r, o = .resp r ∧ r.result = some v ∧ r.error = none

/-- The call failed: no response, a null response, or a response with an error object and no result. -/
def Failed (o : Outcome D) : Prop :=
  o = .threw ∨ o = .nul ∨ ∃ id c m d, o = .resp ⟨id, none, some (mkErrorObj c m d)⟩

/-- A result that does not look like an error object. -/
def NotErrorLike (v : JVal D) : Prop := v.get? (lit "code") = none ∨ v.get? (lit "message") = none

namespace Client

theorem isErrorObject_false {v : JVal D} (h : NotErrorLike v) : isErrorObject v = false := by
  cases v with
  | obj m =>
    simp only [NotErrorLike, JVal.get?] at h
    rcases h with h | h <;> simp [isErrorObject, h]
  | _ => rfl

theorem isErrorObject_mk (c : Int) (m : Bytes) (d : Option (JVal D)) : isErrorObject (mkErrorObj c m d) = true := by
  cases d <;> rfl

theorem typedCall_success {T : Type} {strict : Bool} {valid : JVal D → Bool} {parse : JVal D → T} {o : Outcome D} {v : JVal D}
    (h : SucceededWith o v) (hn : NotErrorLike v) (hv : strict = true → valid v = true) : typedCall strict valid parse o = some (parse v) := by
  obtain ⟨r, rfl, hr, _⟩ := h
  unfold typedCall
  have : replyValue (.resp r) = v := by simp [replyValue, hr]
  simp only [this, isErrorObject_false hn, Bool.false_eq_true, if_false]
  rw [if_neg]
  intro h
  cases hs : strict with
  | false => simp [hs] at h
  | true => simp [hs, hv hs] at h

theorem typedCall_failed_strict {T : Type} {valid : JVal D → Bool} {parse : JVal D → T} {o : Outcome D} (h : Failed o) (hv : valid .null = false) :
    typedCall true valid parse o = none := by
  rcases h with rfl | rfl | ⟨id, c, m, d, rfl⟩
  · simp [typedCall, replyValue, isErrorObject, hv]
  · simp [typedCall, replyValue, isErrorObject, hv]
  · simp [typedCall, replyValue, isErrorObject_mk]

end Client

/-- **C61.** A success whose result has the documented shape is reported as success, with the members of the result, in every mode. -/
theorem C61_success_reported (strict : Bool) (o : Outcome D) (v : JVal D) (h : SucceededWith o v) (hn : NotErrorLike v) :
    (Shape.CallToolResult v → ∃ r, callTool strict o = some r ∧ v.get? (lit "content") = some (.arr r.content) ∧
      (∀ b, v.get? (lit "isError") = some (.bool b) → r.isError = b) ∧ r.structured = v.get? (lit "structuredContent")) ∧
    (Shape.ReadResourceResult v → ∃ l, readResource strict o = some l ∧ v.get? (lit "contents") = some (.arr l)) ∧
    (Shape.GetPromptResult v → ∃ d l, getPrompt strict o = some (d, l) ∧ v.get? (lit "description") = some (.str d) ∧
      v.get? (lit "messages") = some (.arr l)) := by
  refine ⟨fun hs => ?_, fun hs => ?_, fun hs => ?_⟩
  · refine ⟨_, typedCall_success h hn fun _ => (C41_call_tool_result v).2 hs, ?_, ?_, rfl⟩
    · obtain ⟨m, rfl, h1, _⟩ := hs
      obtain ⟨x, hx, l, rfl, _⟩ := h1 _ (by simp; rfl)
      simp only [] at hx
      simp [parseCallTool, JVal.arrAt, JVal.get?, hx, JVal.asArr]
    · intro b hb
      simp [parseCallTool, JVal.boolAt, hb, JVal.asBool]
  · refine ⟨_, typedCall_success h hn fun _ => (C41_read_resource_result v).2 hs, ?_⟩
    obtain ⟨m, rfl, h1, _⟩ := hs
    obtain ⟨x, hx, l, rfl, _⟩ := h1 _ (by simp; rfl)
    simp only [] at hx
    simp [parseRead, JVal.arrAt, JVal.get?, hx, JVal.asArr]
  · refine ⟨_, _, typedCall_success h hn fun _ => (C41_get_prompt_result v).2 hs, ?_, ?_⟩
    · obtain ⟨m, rfl, h1, _⟩ := hs
      obtain ⟨x, hx, s, rfl⟩ := h1 ("description", Shape.Str) (by simp)
      simp only [] at hx
      simp [parsePrompt, JVal.strAt, JVal.get?, hx, JVal.asStr]
    · obtain ⟨m, rfl, h1, _⟩ := hs
      obtain ⟨x, hx, l, rfl, _⟩ := h1 ("messages", Shape.Arr Shape.PromptMessage) (by simp)
      simp only [] at hx
      simp [parsePrompt, JVal.arrAt, JVal.get?, hx, JVal.asArr]

/-- **C61** (partial: strict mode). A failed call is reported as failure. -/
theorem C61_failure_reported_partial (o : Outcome D) (h : Failed o) :
    callTool true o = none ∧ readResource true o = none ∧ getPrompt true o = none :=
  ⟨typedCall_failed_strict h rfl, typedCall_failed_strict h rfl, typedCall_failed_strict h rfl⟩

/-- **C61.** In every mode an error response is reported as failure. -/
theorem C61_error_response_reported (strict : Bool) (id : RpcId) (c : Int) (m : Bytes) (d : Option (JVal D)) :
    callTool strict (.resp ⟨id, none, some (mkErrorObj c m d)⟩ : Outcome D) = none ∧
    readResource strict (.resp ⟨id, none, some (mkErrorObj c m d)⟩ : Outcome D) = none ∧
    getPrompt strict (.resp ⟨id, none, some (mkErrorObj c m d)⟩ : Outcome D) = none := by
  refine ⟨?_, ?_, ?_⟩ <;> simp [callTool, readResource, getPrompt, typedCall, replyValue, isErrorObject_mk]

/-- **C61 fails** in the default mode: when no response arrives (exception or null), every typed call reports an empty success. -/
theorem C61_lost_response_counterexample (o : Outcome D) (h : o = .threw ∨ o = .nul) :
    Failed o ∧ callTool false o = some ⟨[], false, none, none⟩ ∧ readResource false o = some [] ∧ getPrompt false o = some ([], []) := by
  rcases h with rfl | rfl
  · exact ⟨.inl rfl, rfl, rfl, rfl⟩
  · exact ⟨.inr (.inl rfl), rfl, rfl, rfl⟩

/-- **C61 fails** for a valid result that has members named `code` and `message` (any, of any type): it is reported as failure. -/
theorem C61_error_like_result_counterexample (strict : Bool) (a b : JVal D) (id : RpcId) :
    ∃ v, Shape.CallToolResult v ∧ SucceededWith (.resp ⟨id, some v, none⟩) v ∧ callTool strict (.resp ⟨id, some v, none⟩ : Outcome D) = none := by
  refine ⟨.obj [(lit "content", .arr []), (lit "code", a), (lit "message", b)], ?_, ⟨_, rfl, rfl, rfl⟩, ?_⟩
  · rw [← C41_call_tool_result]; rfl
  · unfold callTool typedCall
    have : isErrorObject (.obj [(lit "content", .arr []), (lit "code", a), (lit "message", b)] : JVal D) = true := rfl
    simp [replyValue, this]

/-- A case meeting the hypotheses. -/
example : ∃ (o : Outcome Empty) (v : JVal Empty), SucceededWith o v ∧ NotErrorLike v ∧ Shape.CallToolResult v := by
  refine ⟨_, .obj [(lit "content", .arr [makeText (lit "x")]), (lit "isError", .bool true)], ⟨⟨.null, some _, none⟩, rfl, rfl, rfl⟩, .inl rfl, ?_⟩
  rw [← C41_call_tool_result]; rfl

end Verif
