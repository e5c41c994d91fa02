import Verif.Validation.Model
import Verif.Validation.Spec

/-! C41: strict validation accepts exactly the documented shapes. -/

set_option linter.unusedSimpArgs false

namespace Verif

open Validation

variable {D : Type}

namespace Validation

theorem obj_iff (m : Obj D) (req opt : List (String × Shape.Shape D)) :
    Shape.Obj req opt (.obj m) ↔ (∀ p ∈ req, ∃ x, AMap.get m (lit p.1) = some x ∧ p.2 x) ∧ (∀ p ∈ opt, ∀ x, AMap.get m (lit p.1) = some x → p.2 x) := by
  constructor
  · rintro ⟨m', h, h1⟩; cases h; exact h1
  · intro h; exact ⟨m, rfl, h⟩

theorem obj_not {v : JVal D} (h : ∀ m, v ≠ .obj m) (req opt : List (String × Shape.Shape D)) : ¬ Shape.Obj req opt v := by
  rintro ⟨m, rfl, _⟩; exact h m rfl

theorem isStr_iff (v : JVal D) : isStr v = true ↔ Shape.Str v := by cases v <;> simp [isStr, Shape.Str]

theorem isStringField_iff (m : Obj D) (k : Bytes) : isStringField m k = true ↔ ∃ x, AMap.get m k = some x ∧ Shape.Str x := by
  unfold isStringField
  cases h : AMap.get m k with
  | none => simp
  | some v => cases v <;> simp [Shape.Str]

theorem isOptionalStringField_iff (m : Obj D) (k : Bytes) : isOptionalStringField m k = true ↔ ∀ x, AMap.get m k = some x → Shape.Str x := by
  unfold isOptionalStringField
  cases h : AMap.get m k with
  | none => simp
  | some v => cases v <;> simp [Shape.Str]

theorem isOptionalBoolField_iff (m : Obj D) (k : Bytes) : isOptionalBoolField m k = true ↔ ∀ x, AMap.get m k = some x → Shape.Bool_ x := by
  unfold isOptionalBoolField
  cases h : AMap.get m k with
  | none => simp
  | some v => cases v <;> simp [Shape.Bool_]

theorem isOptionalIntegerField_iff (m : Obj D) (k : Bytes) : isOptionalIntegerField m k = true ↔ ∀ x, AMap.get m k = some x → Shape.Int_ x := by
  unfold isOptionalIntegerField
  cases h : AMap.get m k with
  | none => simp
  | some v => cases v <;> simp [Shape.Int_]

theorem arr_iff (l : List (JVal D)) (p : Shape.Shape D) : Shape.Arr p (.arr l) ↔ ∀ x ∈ l, p x := by
  constructor
  · rintro ⟨l', h, h1⟩; cases h; exact h1
  · intro h; exact ⟨l, rfl, h⟩

theorem all_iff {f : JVal D → Bool} {p : Shape.Shape D} (hf : ∀ v, f v = true ↔ p v) (l : List (JVal D)) :
    l.all f = true ↔ Shape.Arr p (.arr l) := by
  rw [arr_iff, List.all_eq_true]
  exact ⟨fun h x hx => (hf x).1 (h x hx), fun h x hx => (hf x).2 (h x hx)⟩

theorem isArrOf_iff {f : JVal D → Bool} {p : Shape.Shape D} (hf : ∀ v, f v = true ↔ p v) (v : JVal D) : isArrOf f v = true ↔ Shape.Arr p v := by
  cases v with
  | arr l => exact all_iff hf l
  | _ => simp [isArrOf, Shape.Arr]

theorem need_iff {f : JVal D → Bool} {p : Shape.Shape D} (hf : ∀ v, f v = true ↔ p v) (m : Obj D) (k : Bytes) :
    need f m k = true ↔ ∃ x, AMap.get m k = some x ∧ p x := by
  unfold need
  cases h : AMap.get m k with
  | none => simp
  | some v => simp [hf]

theorem may_iff {f : JVal D → Bool} {p : Shape.Shape D} (hf : ∀ v, f v = true ↔ p v) (m : Obj D) (k : Bytes) :
    may f m k = true ↔ ∀ x, AMap.get m k = some x → p x := by
  unfold may
  cases h : AMap.get m k with
  | none => simp
  | some v => simp [hf]

theorem isTheme_iff (v : JVal D) : isTheme v = true ↔ Shape.Or [Shape.Const "light", Shape.Const "dark"] v := by
  cases v <;> simp [isTheme, Shape.Or, Shape.Const]

theorem isNum_iff (v : JVal D) : isNum v = true ↔ Shape.Num v := by cases v <;> simp [isNum, Shape.Num]

theorem isTtl_iff (v : JVal D) : isTtl v = true ↔ Shape.Or [Shape.Int_, Shape.Null] v := by
  cases v <;> simp [isTtl, Shape.Or, Shape.Int_, Shape.Null]

theorem isCursor_iff (v : JVal D) : isCursor v = true ↔ Shape.Cursor v := by
  cases v <;> simp [isCursor, Shape.Cursor, Shape.Or, Shape.Str, Shape.Int_]

theorem isAction_iff (v : JVal D) : isAction v = true ↔ Shape.Or [Shape.Const "accept", Shape.Const "decline", Shape.Const "cancel"] v := by
  cases v <;> simp [isAction, Shape.Or, Shape.Const, or_assoc]

theorem isStringArray_iff (v : JVal D) : isStringArray v = true ↔ Shape.Arr Shape.Str v := isArrOf_iff isStr_iff v

theorem isIconObject_iff (v : JVal D) : isIconObject v = true ↔ Shape.Icon v := by
  cases v with
  | obj m =>
    unfold isIconObject Shape.Icon
    rw [obj_iff]
    simp only [List.forall_mem_cons, List.not_mem_nil, false_implies, implies_true, and_true, ← isStringField_iff, ← isOptionalStringField_iff,
      ← may_iff isStringArray_iff, ← may_iff isTheme_iff]
    cases isStringField m (lit "src") <;> cases isOptionalStringField m (lit "mimeType") <;> cases may isStringArray m (lit "sizes") <;> simp
  | _ => simp [isIconObject, Shape.Icon, Shape.Obj]

theorem isOptionalIconsField_iff (m : Obj D) (k : Bytes) :
    isOptionalIconsField m k = true ↔ ∀ x, AMap.get m k = some x → Shape.Arr Shape.Icon x :=
  may_iff (isArrOf_iff isIconObject_iff) m k

theorem isAnnotationsShape_iff (v : JVal D) : isAnnotationsShape v = true ↔ Shape.Annotations v := by
  cases v with
  | obj m =>
    unfold isAnnotationsShape Shape.Annotations
    rw [obj_iff]
    simp only [List.forall_mem_cons, List.not_mem_nil, false_implies, implies_true, and_true, true_and, ← may_iff (isArrOf_iff isStr_iff),
      ← may_iff isNum_iff]
    cases may (isArrOf isStr) m (lit "audience") <;> simp
  | _ => simp [isAnnotationsShape, Shape.Annotations, Shape.Obj]

theorem isOptionalAnnotationsField_iff (m : Obj D) (k : Bytes) :
    isOptionalAnnotationsField m k = true ↔ ∀ x, AMap.get m k = some x → Shape.Annotations x :=
  may_iff isAnnotationsShape_iff m k

theorem notStr_iff (m : Obj D) (k : Bytes) : isStringField m k = false ↔ ∀ x, AMap.get m k = some x → Shape.NotStr x := by
  rw [← Bool.not_eq_true, isStringField_iff]
  unfold Shape.NotStr
  constructor
  · intro h x hx hs; exact h ⟨x, hx, hs⟩
  · rintro h ⟨x, hx, hs⟩; exact h x hx hs

theorem or_cons (p : Shape.Shape D) (ps : List (Shape.Shape D)) (v : JVal D) : Shape.Or (p :: ps) v ↔ p v ∨ Shape.Or ps v := by
  simp [Shape.Or]

theorem or_nil (v : JVal D) : Shape.Or [] v ↔ False := by simp [Shape.Or]

theorem or_one (p : Shape.Shape D) (v : JVal D) : Shape.Or [p] v ↔ p v := by simp [Shape.Or]

theorem resourceContents_iff (m : Obj D) :
    (isStringField m (lit "uri") && (isStringField m (lit "text") != isStringField m (lit "blob")) && isOptionalStringField m (lit "mimeType")) = true ↔
    Shape.ResourceContents (.obj m) := by
  unfold Shape.ResourceContents
  simp only [or_cons, or_nil, or_false, obj_iff,
    List.forall_mem_cons, List.not_mem_nil, false_implies, implies_true, and_true, ← isStringField_iff, ← isOptionalStringField_iff, ← notStr_iff]
  cases isStringField m (lit "uri") <;> cases isStringField m (lit "text") <;> cases isStringField m (lit "blob") <;>
    cases isOptionalStringField m (lit "mimeType") <;> simp

theorem isEmbeddedResourceObject_iff (v : JVal D) : isEmbeddedResourceObject v = true ↔ Shape.ResourceContents v := by
  cases v with
  | obj m =>
    rw [← resourceContents_iff]
    unfold isEmbeddedResourceObject
    simp only
    cases isStringField m (lit "uri") <;> cases isStringField m (lit "text") <;> cases isStringField m (lit "blob") <;> simp
  | _ => simp [isEmbeddedResourceObject, Shape.ResourceContents, Shape.Or, Shape.Obj]

/-- An object of a fixed `type`. -/
theorem typed_iff (m : Obj D) (ty : Bytes) (c : String) (hty : AMap.get m (lit "type") = some (.str ty)) (req opt : List (String × Shape.Shape D)) :
    Shape.Obj (("type", Shape.Const c) :: req) opt (.obj m) ↔ ty = lit c ∧ Shape.Obj req opt (.obj m) := by
  rw [obj_iff, obj_iff, List.forall_mem_cons]
  simp [hty, Shape.Const, and_assoc]

theorem untyped {m : Obj D} (h : ∀ ty, AMap.get m (lit "type") ≠ some (.str ty)) (c : String) (req opt : List (String × Shape.Shape D)) :
    ¬ Shape.Obj (("type", Shape.Const c) :: req) opt (.obj m) := by
  rw [obj_iff, List.forall_mem_cons]
  rintro ⟨⟨⟨x, hx, hc⟩, _⟩, _⟩
  simp only [Shape.Const] at hc
  subst hc
  exact h _ hx

theorem isContentItem_iff (v : JVal D) : isContentItem v = true ↔ Shape.Content v := by
  cases v with
  | obj m =>
    unfold isContentItem Shape.Content Shape.TextContent
    simp only [or_cons, or_nil, or_false]
    by_cases hty : ∃ ty, AMap.get m (lit "type") = some (.str ty)
    · obtain ⟨ty, hty⟩ := hty
      simp only [hty, typed_iff m ty _ hty]
      simp only [obj_iff, List.forall_mem_cons, List.not_mem_nil, false_implies, implies_true, and_true,
        ← isStringField_iff, ← isOptionalStringField_iff, ← isOptionalIntegerField_iff, ← isOptionalAnnotationsField_iff, ← need_iff isEmbeddedResourceObject_iff]
      by_cases h1 : ty = lit "text"
      · have a : ¬ lit "text" = lit "image" := by decide
        have b : ¬ lit "text" = lit "audio" := by decide
        have c : ¬ lit "text" = lit "resource_link" := by decide
        have d : ¬ lit "text" = lit "resource" := by decide
        simp [h1, a, b, c, d]
      by_cases h2 : ty = lit "image"
      · have b : ¬ lit "image" = lit "audio" := by decide
        have c : ¬ lit "image" = lit "resource_link" := by decide
        have d : ¬ lit "image" = lit "resource" := by decide
        have e : ¬ lit "image" = lit "text" := by decide
        simp [h2, b, c, d, e, and_assoc]
      by_cases h3 : ty = lit "audio"
      · have b : ¬ lit "audio" = lit "image" := by decide
        have c : ¬ lit "audio" = lit "resource_link" := by decide
        have d : ¬ lit "audio" = lit "resource" := by decide
        have e : ¬ lit "audio" = lit "text" := by decide
        simp [h3, b, c, d, e, and_assoc]
      by_cases h4 : ty = lit "resource_link"
      · have b : ¬ lit "resource_link" = lit "image" := by decide
        have c : ¬ lit "resource_link" = lit "audio" := by decide
        have d : ¬ lit "resource_link" = lit "resource" := by decide
        have e : ¬ lit "resource_link" = lit "text" := by decide
        simp [h4, b, c, d, e, and_assoc]
      by_cases h5 : ty = lit "resource"
      · have b : ¬ lit "resource" = lit "image" := by decide
        have c : ¬ lit "resource" = lit "audio" := by decide
        have d : ¬ lit "resource" = lit "resource_link" := by decide
        have e : ¬ lit "resource" = lit "text" := by decide
        simp [h5, b, c, d, e, and_assoc]
      · simp [h1, h2, h3, h4, h5]
    · have hn : ∀ ty, AMap.get m (lit "type") ≠ some (.str ty) := fun ty h => hty ⟨ty, h⟩
      simp only [untyped hn, or_false]
      cases h : AMap.get m (lit "type") with
      | none => simp
      | some x => cases x <;> first | exact absurd h (hn _) | simp
  | _ => simp [isContentItem, Shape.Content, Shape.TextContent, Shape.Or, Shape.Obj]

theorem isTextContentItem_iff (v : JVal D) : isTextContentItem v = true ↔ Shape.TextContent v := by
  unfold isTextContentItem
  rw [Bool.and_eq_true, isContentItem_iff, decide_eq_true_eq]
  cases v with
  | obj m =>
    unfold Shape.Content Shape.TextContent
    simp only [or_cons, or_nil, or_false]
    by_cases hty : ∃ ty, AMap.get m (lit "type") = some (.str ty)
    · obtain ⟨ty, hty⟩ := hty
      have he : (JVal.obj m).strAt (lit "type") = some ty := by simp [JVal.strAt, JVal.get?, hty, JVal.asStr]
      simp only [he, typed_iff m ty _ hty, Option.some.injEq]
      constructor
      · rintro ⟨h, rfl⟩
        rcases h with h | h | h | h | h
        · exact h
        all_goals exact absurd h.1 (by decide)
      · intro h; exact ⟨.inl h, h.1⟩
    · have hn : ∀ ty, AMap.get m (lit "type") ≠ some (.str ty) := fun ty h => hty ⟨ty, h⟩
      simp only [untyped hn, or_false, false_and]
  | _ => simp [Shape.Content, Shape.TextContent, Shape.Or, Shape.Obj]

theorem isReadItem_iff (v : JVal D) : isReadItem v = true ↔ Shape.Or [Shape.TextContent, Shape.ResourceContents] v := by
  simp only [or_cons, or_nil, or_false]
  cases v with
  | obj m =>
    unfold isReadItem
    simp only
    rw [Bool.or_eq_true, isTextContentItem_iff, resourceContents_iff]
  | _ => simp [isReadItem, Shape.TextContent, Shape.ResourceContents, Shape.Or, Shape.Obj]

theorem isPromptMessageItem_iff (v : JVal D) : isPromptMessageItem v = true ↔ Shape.PromptMessage v := by
  unfold isPromptMessageItem Shape.PromptMessage
  simp only [or_cons, or_nil, or_false]
  rw [← isContentItem_iff]
  cases hc : isContentItem v with
  | true => simp
  | false =>
    simp only [Bool.false_eq_true, if_false, false_or]
    cases v with
    | obj m =>
      rw [obj_iff]
      simp only [List.forall_mem_cons, List.not_mem_nil, false_implies, implies_true, and_true, ← isStringField_iff,
        Bool.and_eq_true, need_iff isContentItem_iff]
    | _ => simp [Shape.Obj]

theorem validateTask_iff (v : JVal D) : validateTask v = true ↔ Shape.Task v := by
  cases v with
  | obj m =>
    unfold validateTask Shape.Task
    rw [obj_iff]
    simp only [List.forall_mem_cons, List.not_mem_nil, false_implies, implies_true, and_true, ← isStringField_iff,
      ← isOptionalStringField_iff, ← isOptionalIntegerField_iff, ← may_iff isTtl_iff, Bool.and_eq_true, and_assoc]
  | _ => simp [validateTask, Shape.Task, Shape.Obj]

theorem validateListing_iff {f : JVal D → Bool} {p : Shape.Shape D} (hf : ∀ v, f v = true ↔ p v) (key : String) (v : JVal D) :
    validateListing (lit key) f v = true ↔ Shape.Obj [(key, Shape.Arr p)] [("nextCursor", Shape.Cursor)] v := by
  cases v with
  | obj m =>
    unfold validateListing
    rw [obj_iff]
    simp only [List.forall_mem_cons, List.not_mem_nil, false_implies, implies_true, and_true, Bool.and_eq_true, need_iff (isArrOf_iff hf),
      may_iff isCursor_iff]
  | _ => simp [validateListing, Shape.Obj]

/-- For validators of one object by its members. -/
macro "members" : tactic => `(tactic|
  (rw [obj_iff]
   simp only [List.forall_mem_cons, List.not_mem_nil, false_implies, implies_true, and_true, ← isStringField_iff,
      ← isOptionalStringField_iff, ← isOptionalIntegerField_iff, ← isOptionalBoolField_iff, ← isOptionalAnnotationsField_iff,
      ← isOptionalIconsField_iff, Bool.and_eq_true, and_assoc]))

theorem isToolEntry_iff (v : JVal D) : isToolEntry v = true ↔
    Shape.Obj [("name", Shape.Str)] [("title", Shape.Str), ("description", Shape.Str), ("annotations", Shape.Annotations), ("icons", Shape.Arr Shape.Icon)] v := by
  cases v with
  | obj m => unfold isToolEntry; members
  | _ => simp [isToolEntry, Shape.Obj]

theorem isResourceEntry_iff (v : JVal D) : isResourceEntry v = true ↔
    Shape.Obj [("uri", Shape.Str), ("name", Shape.Str)] [("title", Shape.Str), ("description", Shape.Str), ("mimeType", Shape.Str),
      ("size", Shape.Int_), ("annotations", Shape.Annotations), ("icons", Shape.Arr Shape.Icon)] v := by
  cases v with
  | obj m => unfold isResourceEntry; members
  | _ => simp [isResourceEntry, Shape.Obj]

theorem isTemplateEntry_iff (v : JVal D) : isTemplateEntry v = true ↔
    Shape.Obj [("uriTemplate", Shape.Str), ("name", Shape.Str)] [("title", Shape.Str), ("description", Shape.Str), ("mimeType", Shape.Str),
      ("annotations", Shape.Annotations), ("icons", Shape.Arr Shape.Icon)] v := by
  cases v with
  | obj m => unfold isTemplateEntry; members
  | _ => simp [isTemplateEntry, Shape.Obj]

theorem isPromptEntry_iff (v : JVal D) : isPromptEntry v = true ↔
    Shape.Obj [("name", Shape.Str)] [("title", Shape.Str), ("description", Shape.Str), ("icons", Shape.Arr Shape.Icon)] v := by
  cases v with
  | obj m => unfold isPromptEntry; members
  | _ => simp [isPromptEntry, Shape.Obj]

theorem isRootEntry_iff (v : JVal D) : isRootEntry v = true ↔ Shape.Obj [("uri", Shape.Str)] [("name", Shape.Str)] v := by
  cases v with
  | obj m => unfold isRootEntry; members
  | _ => simp [isRootEntry, Shape.Obj]

theorem isContentOrArray_iff (v : JVal D) : isContentOrArray v = true ↔ Shape.Or [Shape.Content, Shape.Arr Shape.Content] v := by
  simp only [or_cons, or_nil, or_false]
  cases v with
  | arr l =>
    unfold isContentOrArray
    simp only
    rw [all_iff isContentItem_iff]
    simp [Shape.Content, Shape.TextContent, Shape.Or, Shape.Obj]
  | _ => simp [isContentOrArray, isContentItem_iff, Shape.Arr]

theorem isSamplingMessage_iff (v : JVal D) :
    isSamplingMessage v = true ↔ Shape.Obj [] [("content", Shape.Or [Shape.Content, Shape.Arr Shape.Content])] v := by
  cases v with
  | obj m =>
    unfold isSamplingMessage
    rw [obj_iff]
    simp only [List.forall_mem_cons, List.not_mem_nil, false_implies, implies_true, and_true, true_and, may_iff isContentOrArray_iff]
  | _ => simp [isSamplingMessage, Shape.Obj]

end Validation

/-! ### C41 -/

/-- **C41.** A tools/call result is accepted exactly if it has the documented shape. -/
theorem C41_call_tool_result (v : JVal D) : validateCallToolResult v = true ↔ Shape.CallToolResult v := by
  cases v with
  | obj m =>
    unfold validateCallToolResult Shape.CallToolResult
    rw [obj_iff]
    simp only [List.forall_mem_cons, List.not_mem_nil, false_implies, implies_true, and_true, Bool.and_eq_true, need_iff (isArrOf_iff isContentItem_iff),
      isOptionalBoolField_iff]
  | _ => simp [validateCallToolResult, Shape.CallToolResult, Shape.Obj]

/-- **C41.** A resources/read result is accepted exactly if it has the documented shape. -/
theorem C41_read_resource_result (v : JVal D) : validateReadResourceResult v = true ↔ Shape.ReadResourceResult v := by
  cases v with
  | obj m =>
    unfold validateReadResourceResult Shape.ReadResourceResult
    rw [obj_iff]
    simp only [List.forall_mem_cons, List.not_mem_nil, false_implies, implies_true, and_true, need_iff (isArrOf_iff isReadItem_iff)]
  | _ => simp [validateReadResourceResult, Shape.ReadResourceResult, Shape.Obj]

/-- **C41.** A prompts/get result is accepted exactly if it has the documented shape. -/
theorem C41_get_prompt_result (v : JVal D) : validateGetPromptResult v = true ↔ Shape.GetPromptResult v := by
  cases v with
  | obj m =>
    unfold validateGetPromptResult Shape.GetPromptResult
    rw [obj_iff]
    simp only [List.forall_mem_cons, List.not_mem_nil, false_implies, implies_true, and_true, Bool.and_eq_true, isStringField_iff,
      need_iff (isArrOf_iff isPromptMessageItem_iff)]
  | _ => simp [validateGetPromptResult, Shape.GetPromptResult, Shape.Obj]

/-- **C41.** The four listings are accepted exactly if they have the documented shape. -/
theorem C41_listings (v : JVal D) : (validateToolsList v = true ↔ Shape.ToolsList v) ∧ (validateResourcesList v = true ↔ Shape.ResourcesList v) ∧
    (validateTemplatesList v = true ↔ Shape.TemplatesList v) ∧ (validatePromptsList v = true ↔ Shape.PromptsList v) :=
  ⟨validateListing_iff isToolEntry_iff "tools" v, validateListing_iff isResourceEntry_iff "resources" v,
   validateListing_iff isTemplateEntry_iff "resourceTemplates" v, validateListing_iff isPromptEntry_iff "prompts" v⟩

/-- **C41.** Tasks, created tasks, task listings. -/
theorem C41_tasks (v : JVal D) : (validateTask v = true ↔ Shape.Task v) ∧ (validateCreateTaskResult v = true ↔ Shape.CreateTaskResult v) ∧
    (validateTasksListResult v = true ↔ Shape.TasksListResult v) := by
  refine ⟨validateTask_iff v, ?_, ?_⟩
  · cases v with
    | obj m =>
      unfold validateCreateTaskResult Shape.CreateTaskResult
      rw [obj_iff]
      simp only [List.forall_mem_cons, List.not_mem_nil, false_implies, implies_true, and_true, need_iff validateTask_iff]
    | _ => simp [validateCreateTaskResult, Shape.CreateTaskResult, Shape.Obj]
  · cases v with
    | obj m =>
      unfold validateTasksListResult Shape.TasksListResult
      rw [obj_iff]
      simp only [List.forall_mem_cons, List.not_mem_nil, false_implies, implies_true, and_true, Bool.and_eq_true, need_iff (isArrOf_iff validateTask_iff),
        isOptionalStringField_iff]
    | _ => simp [validateTasksListResult, Shape.TasksListResult, Shape.Obj]

/-- **C41.** Completion results, roots, sampling parameters and results. -/
theorem C41_others (v : JVal D) : (validateCompletionResult v = true ↔ Shape.CompletionResult v) ∧ (validateRootsList v = true ↔ Shape.RootsList v) ∧
    (validateCreateMessageParams v = true ↔ Shape.CreateMessageParams v) ∧ (validateCreateMessageResult v = true ↔ Shape.CreateMessageResult v) := by
  refine ⟨?_, ?_, ?_, ?_⟩
  · cases v with
    | obj m =>
      have hc : ∀ x : JVal D, isCompletion x = true ↔ Shape.Obj [("values", Shape.Arr Shape.Str)] [("total", Shape.Int_), ("hasMore", Shape.Bool_)] x := by
        intro x
        cases x with
        | obj c =>
          unfold isCompletion
          rw [obj_iff]
          simp only [List.forall_mem_cons, List.not_mem_nil, false_implies, implies_true, and_true, Bool.and_eq_true, need_iff (isArrOf_iff isStr_iff),
            isOptionalIntegerField_iff, isOptionalBoolField_iff, and_assoc]
        | _ => simp [isCompletion, Shape.Obj]
      unfold validateCompletionResult Shape.CompletionResult
      rw [obj_iff]
      simp only [List.forall_mem_cons, List.not_mem_nil, false_implies, implies_true, and_true, need_iff hc]
    | _ => simp [validateCompletionResult, Shape.CompletionResult, Shape.Obj]
  · cases v with
    | obj m =>
      unfold validateRootsList Shape.RootsList
      rw [obj_iff]
      simp only [List.forall_mem_cons, List.not_mem_nil, false_implies, implies_true, and_true, need_iff (isArrOf_iff isRootEntry_iff)]
    | _ => simp [validateRootsList, Shape.RootsList, Shape.Obj]
  · cases v with
    | obj m =>
      unfold validateCreateMessageParams Shape.CreateMessageParams
      rw [obj_iff]
      simp only [List.forall_mem_cons, List.not_mem_nil, false_implies, implies_true, and_true, need_iff (isArrOf_iff isSamplingMessage_iff)]
    | _ => simp [validateCreateMessageParams, Shape.CreateMessageParams, Shape.Obj]
  · cases v with
    | obj m =>
      unfold validateCreateMessageResult Shape.CreateMessageResult
      rw [obj_iff]
      simp only [List.forall_mem_cons, List.not_mem_nil, false_implies, implies_true, and_true, Bool.and_eq_true, isStringField_iff,
        need_iff isContentOrArray_iff, and_assoc]
    | _ => simp [validateCreateMessageResult, Shape.CreateMessageResult, Shape.Obj]

/-- **C41.** Elicitation requests and results. -/
theorem C41_elicitation (v : JVal D) : (validateElicitationRequest v = true ↔ Shape.ElicitationRequest v) ∧
    (validateElicitationResult v = true ↔ Shape.ElicitationResult v) := by
  constructor
  · cases v with
    | obj m =>
      have h : (AMap.get m (lit "requestedSchema")).isSome = true ↔ ∃ x, AMap.get m (lit "requestedSchema") = some x ∧ Shape.Any x := by
        rw [Option.isSome_iff_exists]; simp [Shape.Any]
      unfold validateElicitationRequest Shape.ElicitationRequest
      rw [obj_iff]
      simp only [List.forall_mem_cons, List.not_mem_nil, false_implies, implies_true, and_true, Bool.and_eq_true, isStringField_iff, h,
        isOptionalStringField_iff, and_assoc]
    | _ => simp [validateElicitationRequest, Shape.ElicitationRequest, Shape.Obj]
  · cases v with
    | obj m =>
      unfold validateElicitationResult Shape.ElicitationResult
      rw [obj_iff]
      simp only [List.forall_mem_cons, List.not_mem_nil, false_implies, implies_true, and_true, isOptionalStringField_iff, Bool.and_eq_true,
        need_iff isAction_iff]
    | _ => simp [validateElicitationResult, Shape.ElicitationResult, Shape.Obj]

/-- **C41.** Content made with the typed builders always passes, also inside a result; and the inspectors read back the text. -/
theorem C41_builders (a b c : Bytes) (t d m : Option Bytes) : isContentItem (makeText a : JVal D) = true ∧ isContentItem (makeImage a b : JVal D) = true ∧
    isContentItem (makeAudio a b : JVal D) = true ∧ isContentItem (makeResourceLink a b t d m : JVal D) = true ∧
    isContentItem (makeEmbeddedText a b m : JVal D) = true ∧ isContentItem (makeEmbeddedBlob a b c : JVal D) = true ∧
    getText (makeText a : JVal D) = some a := by
  refine ⟨rfl, rfl, rfl, ?_, ?_, rfl, rfl⟩
  · cases t <;> cases d <;> cases m <;> rfl
  · cases m <;> rfl

/-- **C41.** Results made of built content pass. -/
theorem C41_built_result_accepted (texts : List Bytes) :
    validateCallToolResult (.obj [(lit "content", .arr (texts.map makeText))] : JVal D) = true ∧
    validateReadResourceResult (.obj [(lit "contents", .arr (texts.map makeText))] : JVal D) = true ∧
    collectText (texts.map makeText : List (JVal D)) = texts ∧ collectReadText (texts.map makeText : List (JVal D)) = texts := by
  have h1 : (texts.map makeText : List (JVal D)).all isContentItem = true := by
    rw [List.all_eq_true]; intro x hx; obtain ⟨t, _, rfl⟩ := List.mem_map.1 hx; rfl
  have h2 : (texts.map makeText : List (JVal D)).all isReadItem = true := by
    rw [List.all_eq_true]; intro x hx; obtain ⟨t, _, rfl⟩ := List.mem_map.1 hx; rfl
  refine ⟨?_, ?_, ?_, ?_⟩
  · show ((texts.map makeText : List (JVal D)).all isContentItem && true) = true
    rw [h1]; rfl
  · exact h2
  · clear h1 h2
    induction texts with
    | nil => rfl
    | cons t ts ih =>
      simp only [List.map_cons, collectText, List.filterMap_cons] at *
      rw [show getText (makeText t : JVal D) = some t from rfl]
      simp only
      rw [ih]
  · clear h1 h2
    induction texts with
    | nil => rfl
    | cons t ts ih =>
      simp only [List.map_cons, collectReadText, List.filterMap_cons] at *
      rw [show ((getText (makeText t : JVal D)).or ((makeText t : JVal D).strAt (lit "text"))) = some t from rfl]
      simp only
      rw [ih]

/-- A shape with optional members, and one near miss: `audience` must be an array. -/
example : Shape.CallToolResult (.obj [(lit "content", .arr [.obj [(lit "type", .str (lit "text")), (lit "text", .str [])]]), (lit "isError", .bool true)] : JVal D) ∧
    ¬ Shape.Annotations (.obj [(lit "audience", .str [])] : JVal D) := by
  rw [← C41_call_tool_result, ← isAnnotationsShape_iff]
  exact ⟨rfl, Bool.false_ne_true⟩

end Verif
