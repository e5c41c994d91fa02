import Verif.Errors.Model
import Verif.Json.Props

/-! C36: error objects keep their meaning. -/

namespace Verif

open Errors

variable {D : Type}

/-! ### Spec: the table of error codes (JSON-RPC 2.0 and MCP) -/

/-- The category of a code. -/
inductive CodeTable : Int → Category → Prop
  | parse : CodeTable (-32700) .jsonRpcParse
  | invalidRequest : CodeTable (-32600) .jsonRpcInvalidRequest
  | methodNotFound : CodeTable (-32601) .jsonRpcMethodNotFound
  | invalidParams : CodeTable (-32602) .jsonRpcInvalidParams
  | internal : CodeTable (-32603) .jsonRpcInternal
  | requestId : CodeTable (-32000) .mcpInvalidRequestId
  | notAllowed : CodeTable (-32001) .mcpMethodNotAllowed
  | resource : CodeTable (-32002) .mcpResourceNotFound
  | tool : CodeTable (-32003) .mcpToolNotFound
  | prompt : CodeTable (-32004) .mcpPromptNotFound

/-- An `int`. -/
def Int32OK (i : Int) : Prop := -(2 ^ 31) ≤ i ∧ i < 2 ^ 31

theorem toInt32_id {i : Int} (h : Int32OK i) : toInt32 i = i := by
  unfold toInt32; unfold Int32OK at h; omega

theorem toInt32_ok (i : Int) : Int32OK (toInt32 i) := by
  unfold toInt32 Int32OK; omega

/-- **C36.** The category is the one of the table, and `unknown` exactly for codes outside it. -/
theorem C36_category (code : Int) :
    (∀ c, c ≠ .unknown → (categoryOf code = c ↔ CodeTable code c)) ∧ (categoryOf code = .unknown ↔ ∀ c, ¬ CodeTable code c) := by
  by_cases hk : code ∈ ([-32700, -32600, -32601, -32602, -32603, -32000, -32001, -32002, -32003, -32004] : List Int)
  · simp only [List.mem_cons, List.not_mem_nil, or_false] at hk
    rcases hk with rfl | rfl | rfl | rfl | rfl | rfl | rfl | rfl | rfl | rfl <;>
    · refine ⟨?_, ?_⟩
      · intro c hc
        constructor
        · intro h
          have h' : c = _ := h.symm
          subst h'
          first
            | exact .parse | exact .invalidRequest | exact .methodNotFound | exact .invalidParams | exact .internal
            | exact .requestId | exact .notAllowed | exact .resource | exact .tool | exact .prompt
        · intro h; cases h; rfl
      · constructor
        · intro h; exact absurd h (by decide)
        · intro h
          exfalso
          first
            | exact h _ .parse | exact h _ .invalidRequest | exact h _ .methodNotFound | exact h _ .invalidParams | exact h _ .internal
            | exact h _ .requestId | exact h _ .notAllowed | exact h _ .resource | exact h _ .tool | exact h _ .prompt
  · simp only [List.mem_cons, List.not_mem_nil, or_false, not_or] at hk
    have hu : categoryOf code = .unknown := by
      simp only [categoryOf, Code.parseError, Code.invalidRequest, Code.methodNotFound, Code.invalidParams, Code.internalError,
        Code.invalidRequestId, Code.methodNotAllowed, Code.resourceNotFound, Code.toolNotFound, Code.promptNotFound]
      simp [hk]
    have hn : ∀ c, ¬ CodeTable code c := by
      intro c h; cases h <;> simp_all
    refine ⟨fun c hc => ⟨fun h => absurd (h.symm.trans hu) hc, fun h => absurd h (hn c)⟩, fun _ => hn, fun _ => hu⟩

/-- **C36.** Every error parsed from a value has the category of its code. -/
theorem C36_parsed_category {v : JVal D} {e : McpError D} (h : errorFromValue v = some e) :
    (∀ c, CodeTable e.code c → e.category = c) ∧ ((∀ c, ¬ CodeTable e.code c) → e.category = .unknown) := by
  have hc : e.category = categoryOf e.code := by
    cases v with
    | obj m =>
      simp only [errorFromValue] at h
      split at h
      · cases h; rfl
      · simp at h
    | _ => simp [errorFromValue] at h
  rw [hc]
  refine ⟨fun c ht => ((C36_category e.code).1 c ?_).2 ht, (C36_category e.code).2.2⟩
  rintro rfl; generalize e.code = x at ht; cases ht

/-- **C36.** Code, message and data survive building and parsing, for every code of type `int`. -/
theorem C36_roundtrip (e : McpError D) (hc : Int32OK e.code) :
    ∃ e', errorFromValue (makeErrorValue e) = some e' ∧ e'.code = e.code ∧ e'.message = e.message ∧ e'.data = e.data := by
  obtain ⟨c, s, d, k⟩ := e
  refine ⟨⟨toInt32 c, s, d, categoryOf (toInt32 c)⟩, ?_, toInt32_id hc, rfl, rfl⟩
  cases d <;> rfl

/-- **C36.** The same for whole responses, which carry the request's id. -/
theorem C36_response_roundtrip (id : RpcId) (e : McpError D) (hc : Int32OK e.code) :
    (makeErrorResponse id e).id = id ∧ (makeErrorResponse id e).result = none ∧
    ∃ e', errorFromResponse (makeErrorResponse id e) = some e' ∧ e'.code = e.code ∧ e'.message = e.message ∧ e'.data = e.data :=
  ⟨rfl, rfl, C36_roundtrip e hc⟩

/-- **C36.** An error value is recognised exactly if it is an object with an integer code and a string message; the code parsed agrees with
the one sent modulo 2^32. -/
theorem C36_recognised (v : JVal D) : (errorFromValue v).isSome = true ↔ ∃ i s, v.intAt (lit "code") = some i ∧ v.strAt (lit "message") = some s := by
  cases v with
  | obj m =>
    simp only [errorFromValue, JVal.intAt, JVal.strAt, JVal.get?]
    cases h1 : AMap.get m (lit "code") with
    | none => simp
    | some a =>
      cases h2 : AMap.get m (lit "message") with
      | none => cases a <;> simp [JVal.asInt]
      | some b => cases a <;> cases b <;> simp [JVal.asInt, JVal.asStr]
  | _ => simp [errorFromValue, JVal.intAt, JVal.get?]

theorem C36_code_mod {v : JVal D} {e : McpError D} {i : Int} (h : errorFromValue v = some e) (hi : v.intAt (lit "code") = some i) :
    Int32OK e.code ∧ ∃ k : Int, i = e.code + k * 2 ^ 32 := by
  have hc : e.code = toInt32 i := by
    cases v with
    | obj m =>
      simp only [errorFromValue] at h
      split at h
      · rename_i c s h1 h2
        cases h
        simp only [JVal.intAt, JVal.get?, h1, Option.bind_some, JVal.asInt, Option.some.injEq] at hi
        rw [hi]
      · simp at h
    | _ => simp [errorFromValue] at h
  rw [hc]
  refine ⟨toInt32_ok i, (i + 2 ^ 31) / 2 ^ 32, ?_⟩
  unfold toInt32
  omega

/-- **C36 fails** for codes outside `int`: a foreign code is read as a standard one. -/
theorem C36_wide_code_counterexample :
    ∃ (v : JVal Empty) (i : Int) (e : McpError Empty), v.intAt (lit "code") = some i ∧ (∀ c, ¬ CodeTable i c) ∧ errorFromValue v = some e ∧
      e.category = .jsonRpcInvalidParams := by
  refine ⟨mkErrorObj (2 ^ 32 - 32602) [] none, 2 ^ 32 - 32602, ⟨-32602, [], none, .jsonRpcInvalidParams⟩, rfl, ?_, rfl, rfl⟩
  intro c h; cases h

section
variable [DblFmt D]

/-- **C36.** Also through the JSON text, for data that itself survives the text (`JVal.Wire`). -/
theorem C36_text_roundtrip (e : McpError D) (hc : Int32OK e.code) (hd : ∀ d ∈ e.data, d.Wire) :
    ∃ v e', parseJson (ser (makeErrorValue e)) = .ok v [] ∧ errorFromValue v = some e' ∧ e'.code = e.code ∧ e'.message = e.message ∧
      e'.data = e.data := by
  obtain ⟨e', h1, h2⟩ := C36_roundtrip e hc
  refine ⟨makeErrorValue e, e', ?_, h1, h2⟩
  have hi : Int64OK e.code := by unfold Int64OK; unfold Int32OK at hc; omega
  have hw : (makeErrorValue e).Wire := by
    obtain ⟨c, s, d, k⟩ := e
    cases d <;> simp_all [makeErrorValue, mkErrorObj, JVal.Wire, WireFields, PlainText, lit]
  have := C02_value_roundtrip_partial (makeErrorValue e) hw [] (by simp [NumStop])
  rwa [List.append_nil] at this
end

/-- A case meeting the hypotheses. -/
example : Int32OK (⟨-32602, lit "bad \"x\"", some (.arr [.int 1]), .unknown⟩ : McpError Empty).code ∧
    (∀ d ∈ (⟨-32602, lit "bad \"x\"", some (.arr [.int 1]), .unknown⟩ : McpError Empty).data, d.Wire) := by
  simp [Int32OK, JVal.Wire, WireList, Int64OK]

end Verif
