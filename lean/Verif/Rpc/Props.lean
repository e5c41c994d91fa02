import Verif.Rpc.Envelope
import Verif.Json.Props

/-!
Property theorems about JSON-RPC messages: C04, C05, C06, C07 (round trips), C14, C15 (routing).
-/

namespace Verif
variable {D : Type} [DblFmt D]

/-! ### C04 -/

/-- **C04.** A request whose id and method contain no double quote (method non-empty) and whose params survive as a JSON
value is read back exactly: same id and kind of id, same method, same params. The only loss possible is the one of C02. -/
theorem C04_request_roundtrip_partial (r : Request D) (hid : IdOK r.id) (hm : '"' ∉ r.method) (hne : r.method ≠ [])
    (hp : ∀ p, r.params = some p → parseJson (ser p ++ ['}']) = .ok p ['}']) :
    deRequest (serRequest r) = some r := by
  obtain ⟨h1, h2, h3⟩ := request_fields r hid hm
  have h4 := getParams_tail (serRequest r) r.params h3 hp
  simp only [deRequest, h4, h2, h1]
  rw [if_neg hne]

/-- C04 for every params value of the class of C02. -/
theorem C04_request_roundtrip_wire (r : Request D) (hid : IdOK r.id) (hm : '"' ∉ r.method) (hne : r.method ≠ [])
    (hp : ∀ p, r.params = some p → p.Wire) : deRequest (serRequest r) = some r :=
  C04_request_roundtrip_partial r hid hm hne (fun p h => parse_wire p (hp p h) (.brace []))

example : let r : Request Empty := ⟨.str (lit "a\\b"), lit "tools/call", some (.obj [(lit "id", .int 7), (lit "method", .str (lit "\""))])⟩
    IdOK r.id ∧ '"' ∉ r.method ∧ r.method ≠ [] ∧ ∀ p, r.params = some p → p.Wire := by
  refine ⟨by show '"' ∉ lit "a\\b"; decide, by decide, by decide, ?_⟩
  intro p h; cases h
  simp [JVal.Wire, WireFields, PlainText, Int64OK, lit]

/-- **C04 fails** with a quote in the id: another id comes back. -/
theorem C04_quoted_id_counterexample :
    ∃ (r r' : Request Empty), deRequest (serRequest r) = some r' ∧ r'.id ≠ r.id :=
  ⟨⟨.str (lit "a\"b"), lit "m", none⟩, ⟨.str (lit "a"), lit "m", none⟩, by decide +kernel, by decide⟩

/-- **C04 fails** with a quote in the id: a peer that chooses ids can make the receiver see another method. -/
theorem C04_id_injection_counterexample :
    ∃ (r r' : Request Empty), deRequest (serRequest r) = some r' ∧ r'.method ≠ r.method :=
  ⟨⟨.str (lit "\",\"method\":\"evil"), lit "m", none⟩, ⟨.str [], lit "evil", none⟩, by decide +kernel, by decide⟩

/-- **C04 fails** for the empty method: Deserialize reports failure. -/
theorem C04_empty_method (id : RpcId) (p : Option (JVal D)) (hid : IdOK id) :
    deRequest (D := D) (serRequest ⟨id, [], p⟩) = none := by
  obtain ⟨_, h2, _⟩ := request_fields (⟨id, [], p⟩ : Request D) hid (by simp)
  simp only [deRequest, h2, if_true]
  split <;> rfl

/-! ### C05 -/

/-- **C05 (partial).** A response is read back exactly when no object nested in the result has a member `error` and, for
a response without a result, no object nested in the error has a member `result`. -/
theorem C05_response_roundtrip_partial (r : Response D) (hid : IdOK r.id)
    (hr : ∀ v, r.result = some v → v.Wire ∧ ¬ v.HasKey (lit "error")) (he : ∀ v, r.error = some v → v.Wire)
    (her : r.result = none → ∀ v, r.error = some v → ¬ v.HasKey (lit "result")) :
    deResponse (serResponse r) = r := by
  have hresult : getResult (serResponse r) = r.result := by
    have h1 := response_skip r hid (lit "result") (by decide) (by decide) (by decide)
    cases hres : r.result with
    | none =>
      rw [hres] at h1
      have h2 : afterKey (lit "result") (serResponse r) = none := by
        rw [h1]; exact errorTail_result r.error (fun v hv => ⟨he v hv, her hres v hv⟩)
      simp [getResult, h2]
    | some v =>
      rw [resultTail_result _ _ v hres] at h1
      exact getResult_of h1 (parse_wire v (hr v hres).1 (errorTail_sep _))
  have herror : getError (serResponse r) = r.error := by
    have h1 := response_skip r hid (lit "error") (by decide) (by decide) (by decide)
    rw [resultTail_error _ _ hr, errorTail_error] at h1
    cases herr : r.error with
    | none => rw [herr] at h1; simp [getError, h1]
    | some v =>
      rw [herr] at h1
      exact getError_of h1 (parse_wire v (he v herr) (.brace []))
  simp only [deResponse, response_id r hid, hresult, herror]

example : let r : Response Empty := ⟨.int 3, some (.obj [(lit "content", .arr [.str (lit "\"error\":")])]), none⟩
    IdOK r.id ∧ (∀ v, r.result = some v → v.Wire ∧ ¬ v.HasKey (lit "error")) := by
  refine ⟨by simp [IdOK, Int64OK], ?_⟩
  intro v h; cases h
  simp [JVal.Wire, WireFields, WireList, PlainText, JVal.HasKey, HasKeyFields, HasKeyList, lit]

/-- **C05, exactly.** The id always survives, and a successful response arrives as successful *if and only if* no object
nested in its result has a member named `error`. -/
theorem C05_success_iff_no_nested_error (id : RpcId) (v : JVal D) (hid : IdOK id) (hv : v.Wire) :
    (deResponse (D := D) (serResponse ⟨id, some v, none⟩)).id = id ∧
    (deResponse (D := D) (serResponse ⟨id, some v, none⟩)).result = some v ∧
    ((deResponse (D := D) (serResponse ⟨id, some v, none⟩)).error = none ↔ ¬ v.HasKey (lit "error")) := by
  have h1 := response_skip (⟨id, some v, none⟩ : Response D) hid (lit "error") (by decide) (by decide) (by decide)
  have h3 := response_skip (⟨id, some v, none⟩ : Response D) hid (lit "result") (by decide) (by decide) (by decide)
  rw [resultTail_result _ _ v rfl] at h3
  refine ⟨response_id _ hid, getResult_of h3 (parse_wire v hv (errorTail_sep _)), ?_, ?_⟩
  · intro h hk
    obtain ⟨u, hu, w, t, hw, rfl, ht⟩ := ak_found_value (by decide : AlphaKey (lit "error")) v hv hk (errorTail (D := D) none)
    have h2 : afterKey (lit "error") (serResponse (⟨id, some v, none⟩ : Response D)) = some (ser w ++ t) := by
      rw [h1]; simp only [resultTail]
      rw [afterKey_skip (by decide), afterKey_member (by decide) (by intro c hc; revert c; decide) (by decide), hu]
    have h4 := getError_of h2 (parse_wire w hw ht)
    simp only [deResponse] at h
    rw [h4] at h
    exact absurd h (by simp)
  · intro hk
    have h2 : afterKey (lit "error") (serResponse (⟨id, some v, none⟩ : Response D)) = none := by
      rw [h1, resultTail_error _ _ (by intro x hx; cases hx; exact ⟨hv, hk⟩), errorTail_error]; rfl
    simp [deResponse, getError, h2]

/-- **C05 fails**: a tool result that mentions a member `error` turns a success into an error at the receiver. -/
theorem C05_nested_error_counterexample :
    ∃ r : Response Empty, r.error = none ∧ (deResponse (D := Empty) (serResponse r)).error ≠ none :=
  ⟨⟨.int 1, some (.obj [(lit "log", .obj [(lit "error", .null)])]), none⟩, rfl, by
    have h := (C05_success_iff_no_nested_error (D := Empty) (.int 1) (.obj [(lit "log", .obj [(lit "error", .null)])])
      (by simp [IdOK, Int64OK]) (by simp [JVal.Wire, WireFields, PlainText, lit])).2.2
    intro hn
    exact (h.1 hn) (by simp [JVal.HasKey, HasKeyFields])⟩

/-- **C05 fails**: an error whose data mentions a member `result` arrives with a result as well. -/
theorem C05_nested_result_counterexample :
    ∃ r : Response Empty, r.result = none ∧ (deResponse (D := Empty) (serResponse r)).result = some (.int 1) :=
  ⟨⟨.int 1, none, some (.obj [(lit "code", .int 5), (lit "data", .obj [(lit "result", .int 1)])])⟩, rfl, by decide +kernel⟩

/-! ### C06 -/

/-- **C06.** A notification with a non-empty method without double quotes, whose params survive as a JSON value, is read
back exactly. -/
theorem C06_notification_roundtrip_partial (r : Notification D) (hm : '"' ∉ r.method) (hne : r.method ≠ [])
    (hp : ∀ p, r.params = some p → parseJson (ser p ++ ['}']) = .ok p ['}']) :
    deNotification (serNotification r) = some r := by
  obtain ⟨h2, h3⟩ := notification_fields r hm
  have h4 := getParams_tail (serNotification r) r.params h3 hp
  simp only [deNotification, h4, h2]
  rw [if_neg hne]

theorem C06_notification_roundtrip_wire (r : Notification D) (hm : '"' ∉ r.method) (hne : r.method ≠ [])
    (hp : ∀ p, r.params = some p → p.Wire) : deNotification (serNotification r) = some r :=
  C06_notification_roundtrip_partial r hm hne (fun p h => parse_wire p (hp p h) (.brace []))

example : let r : Notification Empty := ⟨lit "notifications/progress", some (.obj [(lit "method", .str (lit "x"))])⟩
    '"' ∉ r.method ∧ r.method ≠ [] ∧ ∀ p, r.params = some p → p.Wire := by
  refine ⟨by decide, by decide, ?_⟩
  intro p h; cases h
  simp [JVal.Wire, WireFields, PlainText, lit]

/-! ### C07 -/

/-- **C07 fails**: two texts with the same JSON meaning (they differ only by a space before a colon) deserialise to
different requests: the id is lost in one. -/
theorem C07_whitespace_counterexample :
    ∃ (v : JVal Empty) (t1 t2 : Bytes), JText v t1 ∧ JText v t2 ∧
      ∃ r1 r2, deRequest (D := Empty) t1 = some r1 ∧ deRequest (D := Empty) t2 = some r2 ∧ r1.id ≠ r2.id := by
  refine ⟨.obj [(lit "id", .int 1), (lit "method", .str (lit "x"))], lit "{\"id\":1,\"method\":\"x\"}",
    lit "{\"id\" :1,\"method\":\"x\"}", ?_, ?_, ⟨.int 1, lit "x", none⟩, ⟨.str [], lit "x", none⟩, by decide +kernel, by decide +kernel, by decide⟩
  · have h : JMembers [(lit "id", (.int 1 : JVal Empty)), (lit "method", .str (lit "x"))] (lit "\"id\":1,\"method\":\"x\"") :=
      .cons (w1 := []) (w2 := []) (w3 := []) (w4 := []) (by simp [WsText])
        (.raw 'i' (by decide) (by decide) (.raw 'd' (by decide) (by decide) .nil)) (by simp [WsText]) (by simp [WsText])
        (.nat 1 (by decide)) (by simp [WsText])
        (.one (w1 := []) (w2 := []) (w3 := []) (w4 := []) (by simp [WsText])
          (.raw 'm' (by decide) (by decide) (.raw 'e' (by decide) (by decide) (.raw 't' (by decide) (by decide)
            (.raw 'h' (by decide) (by decide) (.raw 'o' (by decide) (by decide) (.raw 'd' (by decide) (by decide) .nil))))))
          (by simp [WsText]) (by simp [WsText]) (.str (.raw 'x' (by decide) (by decide) .nil)) (by simp [WsText]))
    exact .obj h (by decide)
  · have h : JMembers [(lit "id", (.int 1 : JVal Empty)), (lit "method", .str (lit "x"))] (lit "\"id\" :1,\"method\":\"x\"") :=
      .cons (w1 := []) (w2 := [' ']) (w3 := []) (w4 := []) (by simp [WsText])
        (.raw 'i' (by decide) (by decide) (.raw 'd' (by decide) (by decide) .nil)) (by simp [WsText]) (by simp [WsText])
        (.nat 1 (by decide)) (by simp [WsText])
        (.one (w1 := []) (w2 := []) (w3 := []) (w4 := []) (by simp [WsText])
          (.raw 'm' (by decide) (by decide) (.raw 'e' (by decide) (by decide) (.raw 't' (by decide) (by decide)
            (.raw 'h' (by decide) (by decide) (.raw 'o' (by decide) (by decide) (.raw 'd' (by decide) (by decide) .nil))))))
          (by simp [WsText]) (by simp [WsText]) (.str (.raw 'x' (by decide) (by decide) .nil)) (by simp [WsText]))
    exact .obj h (by decide)

/-- **C07 fails** for member order: with params first, an `id` inside params is taken as the request id. -/
theorem C07_order_counterexample :
    ∃ r1 r2 : Request Empty,
      deRequest (lit "{\"id\":1,\"method\":\"x\",\"params\":{\"id\":7}}") = some r1 ∧
      deRequest (lit "{\"params\":{\"id\":7},\"id\":1,\"method\":\"x\"}") = some r2 ∧ r1.id = .int 1 ∧ r2.id = .int 7 :=
  ⟨⟨.int 1, lit "x", some (.obj [(lit "id", .int 7)])⟩, ⟨.int 7, lit "x", some (.obj [(lit "id", .int 7)])⟩,
    by decide +kernel, by decide +kernel, rfl, rfl⟩

theorem WsText.noQuote {w : Bytes} (h : WsText w) : '"' ∉ w := by
  intro hm; have := h _ hm; revert this; decide

/-- Text after a string or number value: whitespace, then a comma or brace. -/
theorem ws_sep_head {w t : Bytes} (hw : WsText w) (ht : Sep t) :
    (w ++ t).head? ≠ some ':' ∧ (∀ c ∈ (w ++ t).head?, ¬ (97 ≤ c.toNat ∧ c.toNat ≤ 122)) ∧
    (∀ c ∈ (w ++ t).head?, c ≠ '-' ∧ isDig c = false) := by
  cases w with
  | nil => exact ⟨ht.notColon, ht.notAlpha, ht.notNum⟩
  | cons c w =>
    have := hw c (by simp)
    refine ⟨?_, ?_, ?_⟩
    · rcases this with rfl | rfl | rfl | rfl <;> simp
    · intro x hx; simp at hx; subst hx
      rcases this with rfl | rfl | rfl | rfl <;> decide
    · intro x hx; simp at hx; subst hx
      rcases this with rfl | rfl | rfl | rfl <;> decide

theorem ak_quoted_ws {k : Bytes} (hk : AlphaKey k) {X w t : Bytes} (hX : '"' ∉ X) (hw : WsText w) (ht : Sep t) :
    afterKey k ('"' :: (X ++ '"' :: (w ++ t))) = afterKey k t := by
  have h := ws_sep_head hw ht
  rw [afterKey_quote (noMatch_raw X k _ hk.noQuote h.1 hX), afterKey_skips _ hX, afterKey_closing hk h.2.1,
    afterKey_skips _ hw.noQuote]

/-- A request text with the members in the library's order and whitespace `w i` wherever JSON allows it, except between a
member name and its colon. -/
def spacedRequest (w : Nat → Bytes) (id : RpcId) (m pt : Bytes) : Bytes :=
  w 0 ++ lit "{" ++ w 1 ++ lit "\"jsonrpc\":" ++ w 2 ++ lit "\"2.0\"" ++ w 3 ++ lit "," ++
  w 4 ++ lit "\"id\":" ++ w 5 ++ serId id ++ w 6 ++ lit "," ++
  w 7 ++ lit "\"method\":" ++ w 8 ++ lit "\"" ++ m ++ lit "\"" ++ w 9 ++ lit "," ++
  w 10 ++ lit "\"params\":" ++ w 11 ++ pt ++ w 12 ++ lit "}" ++ w 13

theorem spaced_pre {w : Nat → Bytes} (hw : ∀ i, WsText (w i)) {k : Bytes} (hk : AlphaKey k) (hkj : k ≠ lit "jsonrpc")
    (t : Bytes) : afterKey k (w 0 ++ '{' :: (w 1 ++ '"' :: (lit "jsonrpc" ++
      '"' :: ':' :: (w 2 ++ '"' :: (lit "2.0" ++ '"' :: (w 3 ++ ',' :: (w 4 ++ t))))))) = afterKey k t := by
  rw [afterKey_skips _ (hw 0).noQuote, afterKey_skip (by decide), afterKey_skips _ (hw 1).noQuote,
    afterKey_member hk (by intro c hc; revert c; decide) (Ne.symm hkj), afterKey_skips _ (hw 2).noQuote,
    ak_quoted_ws hk (by decide) (hw 3) (.comma _), afterKey_skip (by decide), afterKey_skips _ (hw 4).noQuote]

theorem spaced_mid {w : Nat → Bytes} (hw : ∀ i, WsText (w i)) {k : Bytes} (hk : AlphaKey k) (hkj : k ≠ lit "jsonrpc")
    (hki : k ≠ lit "id") {id : RpcId} (hid : IdOK id) (t : Bytes) :
    afterKey k ('"' :: (lit "id" ++ '"' :: ':' :: (w 5 ++ (serId id ++ (w 6 ++ ',' :: (w 7 ++ t)))))) = afterKey k t := by
  rw [afterKey_member hk (by intro c hc; revert c; decide) (Ne.symm hki), afterKey_skips _ (hw 5).noQuote]
  have : afterKey k (serId id ++ (w 6 ++ ',' :: (w 7 ++ t))) = afterKey k (',' :: (w 7 ++ t)) := by
    cases id with
    | str s =>
      simp only [serId, List.cons_append, List.append_assoc, List.nil_append]
      exact ak_quoted_ws hk hid (hw 6) (.comma _)
    | int i => simp only [serId]; rw [afterKey_skips _ (intDec_noQuote i), afterKey_skips _ (hw 6).noQuote]
    | null => simp only [serId]; rw [afterKey_skips _ (by decide), afterKey_skips _ (hw 6).noQuote]
  rw [this, afterKey_skip (by decide), afterKey_skips _ (hw 7).noQuote]

def spT3 (w : Nat → Bytes) (pt : Bytes) : Bytes :=
  '"' :: (lit "params" ++ '"' :: ':' :: (w 11 ++ (pt ++ (w 12 ++ '}' :: w 13))))

def spT2 (w : Nat → Bytes) (m pt : Bytes) : Bytes :=
  '"' :: (lit "method" ++ '"' :: ':' :: (w 8 ++ '"' :: (m ++ '"' :: (w 9 ++ ',' :: (w 10 ++ spT3 w pt)))))

def spT1 (w : Nat → Bytes) (id : RpcId) (m pt : Bytes) : Bytes :=
  '"' :: (lit "id" ++ '"' :: ':' :: (w 5 ++ (serId id ++ (w 6 ++ ',' :: (w 7 ++ spT2 w m pt)))))

theorem spaced_eq (w : Nat → Bytes) (id : RpcId) (m pt : Bytes) : spacedRequest w id m pt =
    w 0 ++ '{' :: (w 1 ++ '"' :: (lit "jsonrpc" ++
      '"' :: ':' :: (w 2 ++ '"' :: (lit "2.0" ++ '"' :: (w 3 ++ ',' :: (w 4 ++ spT1 w id m pt)))))) := by
  unfold spacedRequest
  simp only [List.append_assoc]
  unfold spT1 spT2 spT3
  rfl

/-- **C07 (partial).** For requests written with their members in the order jsonrpc, id, method, params and without
whitespace between a member name and its colon, the result depends only on the meaning: any whitespace elsewhere and any
JSON text for params give the same request. Missing: other orders and whitespace before a colon, where it is false. -/
theorem C07_layout_independent_partial (w : Nat → Bytes) (hw : ∀ i, WsText (w i)) (id : RpcId) (hid : IdOK id) (m : Bytes)
    (hm : '"' ∉ m) (hne : m ≠ []) (p : JVal D) (pt : Bytes) (hp : JText p pt) :
    deRequest (spacedRequest w id m pt) = some ⟨id, m, some p⟩ := by
  have e := spaced_eq w id m pt
  have h1 : getId (spacedRequest w id m pt) = id := by
    rw [e]
    exact getId_of hid (hw 5) (by rw [spaced_pre hw (by decide) (by decide), spT1, afterKey_hit]) (ws_sep_head (hw 6) (.comma _)).2.2
  have h2 : getMethod (spacedRequest w id m pt) = m := by
    rw [e]
    exact getMethod_of hm (hw 8).noQuote (by
      rw [spaced_pre hw (by decide) (by decide), spT1, spaced_mid hw (by decide) (by decide) (by decide) hid, spT2, afterKey_hit])
  have h3 : getParams (spacedRequest w id m pt) = some (some p) := by
    rw [e]
    apply getParams_of (t := w 11 ++ (pt ++ (w 12 ++ '}' :: w 13))) (r := w 12 ++ '}' :: w 13)
    · rw [spaced_pre hw (by decide) (by decide), spT1, spaced_mid hw (by decide) (by decide) (by decide) hid, spT2,
        afterKey_member (by decide) (by intro c hc; revert c; decide) (by decide),
        afterKey_skips _ (hw 8).noQuote, ak_quoted_ws (by decide) hm (hw 9) (.comma _), afterKey_skip (by decide),
        afterKey_skips _ (hw 10).noQuote, spT3, afterKey_hit]
    · have hs : NumStop (w 12 ++ '}' :: w 13) := numStop_ws (hw 12) (Sep.brace _).numStop
      obtain ⟨N, hN⟩ := complete_value hp _ hs
      rw [← C03_fuel_irrelevant _ (N + (2 * (w 11 ++ (pt ++ (w 12 ++ '}' :: w 13))).length + 1)) (by omega), parseValue_ws (hw 11)]
      exact hN _ (by omega)
  simp only [deRequest, h3, h2, h1]
  rw [if_neg hne]

example : (∀ _ : Nat, WsText [' ', '\n']) ∧ JText (.arr [] : JVal Empty) ['[', ' ', ']'] :=
  ⟨fun _ => by simp [WsText], .arr0 [' '] (by simp [WsText])⟩

/-! ### C15 -/

/-- **C15.** Requests the library serialises are classified as requests, whatever their params contain. -/
theorem C15_request_classified (r : Request D) (hid : IdPlain r.id) (hm : PlainText r.method)
    (hp : ∀ v, r.params = some v → v.Wire) : classify (serRequest r) = .request := by
  obtain ⟨h1, h2, h3, h4⟩ := request_top r hid hm hp
  simp [classify, h1, h2, h3, h4]

/-- **C15.** Notifications are classified as notifications, even when their params contain `id`, `result`, `error`. -/
theorem C15_notification_classified (r : Notification D) (hm : PlainText r.method)
    (hp : ∀ v, r.params = some v → v.Wire) : classify (serNotification r) = .notification := by
  obtain ⟨h1, h2, h3, h4⟩ := notification_top r hm hp
  simp [classify, h1, h2, h3, h4]

/-- **C15.** Responses carrying a result or an error are classified as responses. -/
theorem C15_response_classified (r : Response D) (hid : IdPlain r.id) (hr : ∀ v, r.result = some v → v.Wire)
    (hne : r.result ≠ none ∨ r.error ≠ none) : classify (serResponse r) = .response := by
  have h := response_top r hid hr hne
  unfold classify
  rw [if_pos h]

example : let r : Notification Empty := ⟨lit "n", some (.obj [(lit "id", .int 1), (lit "result", .str (lit "}\"id\":"))])⟩
    PlainText r.method ∧ ∀ v, r.params = some v → v.Wire := by
  refine ⟨by simp [PlainText, lit], ?_⟩
  intro p h; cases h
  simp [JVal.Wire, WireFields, PlainText, Int64OK, lit]

/-- **C15 fails** for an id ending in a backslash: the request is no longer recognised as one (its `method` member is
swallowed into the id text). -/
theorem C15_backslash_id_counterexample :
    ∃ r : Request Empty, classify (serRequest r) = .response :=
  ⟨⟨.str (lit "\\"), lit ",\"result\":", none⟩, by decide +kernel⟩

/-! ### C14 -/

/-- The response owed for a request, given what the handler did. -/
def OwedResponse (req : Request D) (out : HandlerOutcome D) (resp : Response D) : Prop :=
  resp.id = req.id ∧
  match out with
  | .resp r => resp.result = r.result ∧ resp.error = r.error
  | .nul => resp.result = none ∧ ∃ m, resp.error = some (.obj [(lit "code", .int (-32603)), (lit "message", .str m)])
  | .threw m => resp.result = none ∧ resp.error = some (.obj [(lit "code", .int (-32603)), (lit "message", .str m)])

/-- **C14.** Any text recognised as a request is handed to the handler exactly once, nothing else happens, and exactly one
response text is produced: the one owed, carrying the request's id whatever the handler did. -/
theorem C14_request_answered (h : Handlers D) (f : Request D → HandlerOutcome D) (hf : h.request = some f) (json : Bytes)
    (req : Request D) (hc : classify json = .request) (hd : deRequest json = some req) :
    ∃ resp, route h json = ⟨some (serResponse resp), [], [req]⟩ ∧ OwedResponse req (f req) resp := by
  unfold classify at hc
  split at hc
  · cases hc
  · next h1 =>
    split at hc
    · next h2 =>
      split at hc
      · next h3 =>
        refine ⟨replyFor req (f req), ?_, ?_⟩
        · unfold route
          rw [if_neg h1, if_pos (by simp [h2, h3])]
          simp only [hd, hf]
        · cases hfr : f req with
          | resp r => exact ⟨rfl, rfl, rfl⟩
          | nul => exact ⟨rfl, rfl, lit "Null response from handler", by simp [replyFor, mkErrorObj, Code.internalError]⟩
          | threw m => exact ⟨rfl, rfl, by simp [replyFor, mkErrorObj, Code.internalError]⟩
      · cases hc
    · cases hc

/-- **C14.** A response text is only resolved: no output, no handler runs. -/
theorem C14_response_silent (h : Handlers D) (json : Bytes) (hc : classify json = .response) :
    route h json = ⟨none, [.resolved (deResponse json)], []⟩ := by
  unfold classify at hc
  split at hc
  · next h1 => unfold route; rw [if_pos h1]
  · split at hc
    · split at hc <;> cases hc
    · cases hc

/-- **C14.** Nothing but a request produces output, and output is produced exactly when the request handler ran (once). -/
theorem C14_reply_iff_handled (h : Handlers D) (json : Bytes) :
    ((route h json).reply.isSome ↔ ∃ req, (route h json).requestsHandled = [req]) ∧
    (route h json).requestsHandled.length ≤ 1 ∧
    ((route h json).reply.isSome → classify json = .request) := by
  have hn : (routeNotification h json).reply = none ∧ (routeNotification h json).requestsHandled = [] := by
    unfold routeNotification; split <;> exact ⟨rfl, rfl⟩
  unfold route
  split
  · simp
  · next h1 =>
    split
    · next h2 =>
      have hcl : classify json = .request := by
        rw [Bool.and_eq_true] at h2
        unfold classify; rw [if_neg h1, if_pos h2.1, if_pos h2.2]
      split
      · split
        · simp [hcl]
        · simp [hn.1, hn.2]
      · simp [hn.1, hn.2]
    · simp [hn.1, hn.2]

/-- **C14, end to end.** For every request the library can serialise and every handler, the reply text read by the
requester's router resolves exactly one response with the request's id; a handler's result arrives unchanged as long as it
does not run into C05's nested-key problem. -/
theorem C14_end_to_end (h h' : Handlers D) (f : Request D → HandlerOutcome D) (hf : h.request = some f) (r : Request D)
    (hid : IdPlain r.id) (hm : PlainText r.method) (hne : r.method ≠ []) (hp : ∀ v, r.params = some v → v.Wire)
    (x : Response D) (hx : f r = .resp x) (v : JVal D) (hres : x.result = some v) (herr : x.error = none)
    (hv : v.Wire) (hk : ¬ v.HasKey (lit "error")) :
    ∃ text, route h (serRequest r) = ⟨some text, [], [r]⟩ ∧
      route h' text = ⟨none, [.resolved ⟨r.id, some v, none⟩], []⟩ := by
  obtain ⟨resp, h1, h2, h3⟩ := C14_request_answered h f hf (serRequest r) r (C15_request_classified r hid hm hp)
    (C04_request_roundtrip_wire r hid.ok hm.noQuote hne hp)
  rw [hx] at h3
  have he : resp = ⟨r.id, some v, none⟩ := by
    cases resp; simp only at h2 h3; rw [h2, h3.1, h3.2, hres, herr]
  subst he
  refine ⟨_, h1, ?_⟩
  rw [C14_response_silent h' _ (C15_response_classified _ hid (by intro w hw; cases hw; exact hv) (.inl (by simp)))]
  rw [C05_response_roundtrip_partial _ hid.ok (by intro w hw; cases hw; exact ⟨hv, hk⟩) (by simp) (by simp)]

/-- A handler with the wrong id in its response, on a request with a string id: the hypotheses of `C14_end_to_end`. -/
example : let r : Request Empty := ⟨.str (lit "a"), lit "ping", none⟩
    let f : Request Empty → HandlerOutcome Empty := fun _ => .resp ⟨.int 99, some (.obj []), none⟩
    IdPlain r.id ∧ PlainText r.method ∧ r.method ≠ [] ∧ f r = .resp ⟨.int 99, some (.obj []), none⟩ ∧
    (JVal.obj [] : JVal Empty).Wire ∧ ¬ (JVal.obj [] : JVal Empty).HasKey (lit "error") := by
  refine ⟨by simp [IdPlain, PlainText, lit], by simp [PlainText, lit], by decide, rfl, by simp [JVal.Wire, WireFields],
    by simp [JVal.HasKey, HasKeyFields]⟩

/-- **C14 fails** for a request that cannot be deserialised or when no request handler is installed: the message falls
through to the notification handler although it carries an id. -/
theorem C14_no_handler_counterexample :
    ∃ (h : Handlers Empty) (r : Request Empty), h.request = none ∧
      (route h (serRequest r)).reply = none ∧ (route h (serRequest r)).effects = [.notified ⟨r.method, r.params⟩] :=
  ⟨⟨none, true, true⟩, ⟨.int 1, lit "ping", none⟩, rfl, by decide +kernel, by decide +kernel⟩

end Verif
