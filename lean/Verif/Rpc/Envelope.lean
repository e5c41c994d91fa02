import Verif.Rpc.Lemmas
import Verif.Json.Complete

/-! Lemmas about whole messages. -/

namespace Verif
variable {D : Type} [DblFmt D]

/-- Ids the envelope can carry: strings without a double quote, 64-bit integers, null. -/
def IdOK : RpcId → Prop
  | .str s => '"' ∉ s
  | .int i => Int64OK i
  | .null => True

/-- Ids that the top-level scanner also understands: in addition no backslash. -/
def IdPlain : RpcId → Prop
  | .str s => PlainText s
  | .int i => Int64OK i
  | .null => True

theorem IdPlain.ok {id : RpcId} (h : IdPlain id) : IdOK id := by
  cases id with
  | str s => exact PlainText.noQuote h
  | int i => exact h
  | null => trivial

/-- Text before the id value in requests and responses. -/
def preId : Bytes := lit "{\"jsonrpc\":\"2.0\",\"id\":"

theorem preId_id (t : Bytes) : afterKey (lit "id") (preId ++ t) = some t := by
  have h := afterKey_hit (lit "id") t
  simp only [preId, lit, String.reduceToList, List.cons_append, List.nil_append] at h ⊢
  repeat (first | rw [h] | rw [afterKey_skip (by decide)] | rw [afterKey_quote (by simp [List.cons_prefix_cons])])

theorem preId_skip (k : Bytes) (hk : AlphaKey k) (h1 : k ≠ lit "jsonrpc") (h2 : k ≠ lit "id") (t : Bytes) :
    afterKey k (preId ++ t) = afterKey k t := by
  have e : preId ++ t = '{' :: '"' :: (lit "jsonrpc" ++ '"' :: ':' :: '"' :: (lit "2.0" ++ '"' :: ',' ::
      '"' :: (lit "id" ++ '"' :: ':' :: t))) := by simp [preId, lit]
  rw [e, afterKey_skip (by decide), afterKey_member hk (by intro c hc; revert c; decide) (Ne.symm h1),
    afterKey_quoted hk (by decide) (.comma _), afterKey_skip (by decide),
    afterKey_member hk (by intro c hc; revert c; decide) (Ne.symm h2)]

theorem serId_skip {k : Bytes} (hk : AlphaKey k) {id : RpcId} (hid : IdOK id) {t : Bytes} (ht : Sep t) :
    afterKey k (serId id ++ t) = afterKey k t := by
  cases id with
  | str s =>
    simp only [serId, List.cons_append, List.append_assoc, List.nil_append]
    exact afterKey_quoted hk hid ht
  | int i => exact afterKey_skips t (intDec_noQuote i)
  | null => exact afterKey_skips t (by decide)

theorem takeIntRun_append : ∀ {q : Bytes} {t : Bytes}, (∀ c ∈ q, c = '-' ∨ isDig c = true) →
    (∀ c ∈ t.head?, c ≠ '-' ∧ isDig c = false) → takeIntRun (q ++ t) = q
  | [], [], _, _ => rfl
  | [], c :: t, _, h => by
    have := h c (by simp)
    simp [takeIntRun, this.1, this.2]
  | c :: q, t, hq, h => by
    have hc := hq c (by simp)
    have ih := takeIntRun_append (q := q) (t := t) (fun x hx => hq x (by simp [hx])) h
    simp only [List.cons_append, takeIntRun, ih]
    rw [if_pos]
    simpa using hc

theorem stollRun_intDec (i : Int) (h : Int64OK i) : stollRun (intDec i) = some i := by
  have hnil : ∀ c ∈ ([] : Bytes).head?, isDig c = false := by simp
  cases i with
  | ofNat n =>
    have h2 := takeDigits_append (ds := natDec n) (fun c hc => natDec_isDig hc) [] hnil
    rw [List.append_nil] at h2
    obtain ⟨c, cs, hn⟩ : ∃ c cs, natDec n = c :: cs := by
      cases hh : natDec n with
      | nil => exact absurd hh (natDec_ne_nil n)
      | cons c cs => exact ⟨c, cs, rfl⟩
    have h1 : takeSign (natDec n) = ([], natDec n) := by
      rw [hn]; exact takeSign_dig (natDec_isDig (n := n) (by simp [hn]))
    simp only [stollRun, intDec, h1, h2]
    exact stollSigned_pos n h
  | negSucc n =>
    have h2 := takeDigits_append (ds := natDec (n + 1)) (fun c hc => natDec_isDig hc) [] hnil
    rw [List.append_nil] at h2
    have h1 : takeSign ('-' :: natDec (n + 1)) = (['-'], natDec (n + 1)) := by simp [takeSign]
    simp only [stollRun, intDec, h1, h2]
    exact stollSigned_neg (n + 1) h

/-- Reading an id value that follows the `"id":` key, with optional whitespace. -/
theorem getId_of {json w t : Bytes} {id : RpcId} (hid : IdOK id) (hw : WsText w)
    (h : afterKey (lit "id") json = some (w ++ (serId id ++ t)))
    (ht : ∀ c ∈ t.head?, c ≠ '-' ∧ isDig c = false) : getId json = id := by
  simp only [getId, h, skipWs_ws hw]
  cases id with
  | str s =>
    simp only [serId, List.cons_append, List.append_assoc, List.nil_append, skipWs_cons (show isWs '"' = false by decide),
      if_true]
    rw [splitCh_append _ hid]
  | int i =>
    obtain ⟨c, cs, h1, h2⟩ := intDec_head i
    have hrun : takeIntRun (intDec i ++ t) = intDec i := takeIntRun_append (fun c hc => by
      rcases intDec_chars hc with h | h | h
      · exact .inr h
      · exact .inl h
      · subst h
        exfalso
        cases i with
        | ofNat n => have := natDec_isDig (n := n) hc; revert this; decide
        | negSucc n =>
          simp only [intDec, List.mem_cons] at hc
          rcases hc with hc | hc
          · revert hc; decide
          · have := natDec_isDig hc; revert this; decide) ht
    have hst := stollRun_intDec i hid
    simp only [serId]
    rw [h1, List.cons_append] at hrun ⊢
    rw [skipWs_cons h2.facts.1]
    simp only
    rw [if_neg h2.facts.2.2.2.1, if_pos, hrun, ← h1, hst]
    rcases h2 with h2 | h2 <;> simp [h2]
  | null =>
    simp only [serId, lit, String.reduceToList, List.cons_append, List.nil_append]
    rw [skipWs_cons (by decide)]
    simp [List.isPrefixOf, isDig]

theorem Sep.notNum {t : Bytes} (h : Sep t) : ∀ c ∈ t.head?, c ≠ '-' ∧ isDig c = false := by
  obtain ⟨c, r, rfl, h⟩ := h
  intro x hx; simp at hx; subst hx
  rcases h with rfl | rfl | rfl <;> decide

theorem getMethod_of {json w m t : Bytes} (hm : '"' ∉ m) (hw : '"' ∉ w)
    (h : afterKey (lit "method") json = some (w ++ '"' :: (m ++ '"' :: t))) : getMethod json = m := by
  simp only [getMethod, h]
  rw [splitCh_append _ hw]
  simp only
  rw [splitCh_append _ hm]

theorem parseJson_skipWs (s : Bytes) : parseJson (D := D) (skipWs s) = parseJson s := by
  have h := (skipWs_suffix s).length_le
  rw [← parseValue_fuel_irrel (skipWs s) (2 * s.length + 2) (by omega), parseValue_skipWs]
  rfl

theorem getParams_none {json : Bytes} (h : afterKey (lit "params") json = none) :
    getParams (D := D) json = some none := by
  simp [getParams, h]

theorem getParams_of {json t r : Bytes} {p : JVal D} (h : afterKey (lit "params") json = some t)
    (hp : parseJson t = .ok p r) : getParams json = some (some p) := by
  rw [← parseJson_skipWs] at hp
  cases hs : skipWs t with
  | nil => rw [hs] at hp; simp [parseJson, parseValue, skipWs] at hp
  | cons c cs => rw [hs] at hp; simp [getParams, h, hs, hp]

theorem getResult_of {json t r : Bytes} {p : JVal D} (h : afterKey (lit "result") json = some t)
    (hp : parseJson t = .ok p r) : getResult json = some p := by
  rw [← parseJson_skipWs] at hp
  cases hs : skipWs t with
  | nil => rw [hs] at hp; simp [parseJson, parseValue, skipWs] at hp
  | cons c cs => rw [hs] at hp; simp [getResult, h, hs, hp]

theorem getError_of {json t r : Bytes} {p : JVal D} (h : afterKey (lit "error") json = some t)
    (hp : parseJson t = .ok p r) : getError json = some p := by
  rw [← parseJson_skipWs] at hp
  cases hs : skipWs t with
  | nil => rw [hs] at hp; simp [parseJson, parseValue, skipWs] at hp
  | cons c cs => rw [hs] at hp; simp [getError, h, hs, hp]

theorem parse_wire (v : JVal D) (hv : v.Wire) {t : Bytes} (ht : Sep t) : parseJson (ser v ++ t) = .ok v t :=
  rt_value v hv _ (by simp; omega) t ht.numStop

/-! ### Requests -/

/-- Text of the params part and the closing brace. -/
def paramsTail (p : Option (JVal D)) : Bytes :=
  match p with
  | some p => ',' :: '"' :: (lit "params" ++ '"' :: ':' :: (ser p ++ ['}']))
  | none => ['}']

theorem paramsTail_sep (p : Option (JVal D)) : Sep (paramsTail p) := by
  cases p with
  | none => exact .brace _
  | some p => exact .comma _

theorem serRequest_eq (r : Request D) : serRequest r =
    preId ++ (serId r.id ++ ',' :: '"' :: (lit "method" ++ '"' :: ':' :: '"' :: (r.method ++ '"' :: paramsTail r.params))) := by
  unfold serRequest preId paramsTail
  cases r.params <;> simp [lit]

theorem serNotification_eq (r : Notification D) : serNotification r =
    '{' :: '"' :: (lit "jsonrpc" ++ '"' :: ':' :: '"' :: (lit "2.0" ++ '"' :: ',' :: '"' ::
      (lit "method" ++ '"' :: ':' :: '"' :: (r.method ++ '"' :: paramsTail r.params)))) := by
  unfold serNotification paramsTail
  cases r.params <;> simp [lit]

theorem paramsTail_params (p : Option (JVal D)) :
    afterKey (lit "params") (paramsTail p) = p.map (fun p => ser p ++ ['}']) := by
  cases p with
  | none => simp only [paramsTail, Option.map_none]; rw [afterKey_skip (by decide), afterKey_nil]
  | some p => simp only [paramsTail, Option.map_some]; rw [afterKey_skip (by decide), afterKey_hit]

theorem getParams_tail (json : Bytes) (p : Option (JVal D))
    (h : afterKey (lit "params") json = afterKey (lit "params") (paramsTail p))
    (hp : ∀ v, p = some v → parseJson (ser v ++ ['}']) = .ok v ['}']) : getParams json = some p := by
  rw [paramsTail_params] at h
  cases p with
  | none => exact getParams_none h
  | some v => exact getParams_of h (hp v rfl)

theorem request_fields (r : Request D) (hid : IdOK r.id) (hm : '"' ∉ r.method) :
    getId (serRequest r) = r.id ∧ getMethod (serRequest r) = r.method ∧
    afterKey (lit "params") (serRequest r) = afterKey (lit "params") (paramsTail r.params) := by
  rw [serRequest_eq]
  refine ⟨?_, ?_, ?_⟩
  · exact getId_of (w := []) hid (by simp [WsText]) (preId_id _) (Sep.comma _).notNum
  · apply getMethod_of (w := []) (t := paramsTail r.params) hm (by simp)
    rw [preId_skip _ (by decide) (by decide) (by decide), serId_skip (by decide) hid (.comma _),
      afterKey_skip (by decide), afterKey_hit]
    simp only [List.nil_append]
  · rw [preId_skip _ (by decide) (by decide) (by decide), serId_skip (by decide) hid (.comma _),
      afterKey_skip (by decide), afterKey_member (by decide) (by intro c hc; revert c; decide) (by decide),
      afterKey_quoted (by decide) hm (paramsTail_sep _)]

theorem notification_fields (r : Notification D) (hm : '"' ∉ r.method) :
    getMethod (serNotification r) = r.method ∧
    afterKey (lit "params") (serNotification r) = afterKey (lit "params") (paramsTail r.params) := by
  rw [serNotification_eq]
  have pre : ∀ k : Bytes, AlphaKey k → k ≠ lit "jsonrpc" → ∀ t, afterKey k ('{' :: '"' :: (lit "jsonrpc" ++ '"' :: ':' :: '"' ::
      (lit "2.0" ++ '"' :: ',' :: t))) = afterKey k t := fun k hk h1 t => by
    rw [afterKey_skip (by decide), afterKey_member hk (by intro c hc; revert c; decide) (Ne.symm h1),
      afterKey_quoted hk (by decide) (.comma _), afterKey_skip (by decide)]
  refine ⟨?_, ?_⟩
  · apply getMethod_of (w := []) (t := paramsTail r.params) hm (by simp)
    rw [pre _ (by decide) (by decide), afterKey_hit]
    simp only [List.nil_append]
  · rw [pre _ (by decide) (by decide),
      afterKey_member (by decide) (by intro c hc; revert c; decide) (by decide),
      afterKey_quoted (by decide) hm (paramsTail_sep _)]

/-! ### Responses -/

/-- Text of the error part and the closing brace. -/
def errorTail (e : Option (JVal D)) : Bytes :=
  match e with
  | some e => ',' :: '"' :: (lit "error" ++ '"' :: ':' :: (ser e ++ ['}']))
  | none => ['}']

def resultTail (r e : Option (JVal D)) : Bytes :=
  match r with
  | some r => ',' :: '"' :: (lit "result" ++ '"' :: ':' :: (ser r ++ errorTail e))
  | none => errorTail e

theorem errorTail_sep (p : Option (JVal D)) : Sep (errorTail p) := by
  cases p with
  | none => exact .brace _
  | some p => exact .comma _

theorem resultTail_sep (r p : Option (JVal D)) : Sep (resultTail r p) := by
  cases r with
  | none => exact errorTail_sep p
  | some p => exact .comma _

theorem serResponse_eq (r : Response D) : serResponse r = preId ++ (serId r.id ++ resultTail r.result r.error) := by
  unfold serResponse preId resultTail errorTail
  cases r.result <;> cases r.error <;> simp [lit]

theorem response_skip (r : Response D) (hid : IdOK r.id) (k : Bytes) (hk : AlphaKey k) (h1 : k ≠ lit "jsonrpc")
    (h2 : k ≠ lit "id") : afterKey k (serResponse r) = afterKey k (resultTail r.result r.error) := by
  rw [serResponse_eq, preId_skip _ hk h1 h2, serId_skip hk hid (resultTail_sep _ _)]

theorem response_id (r : Response D) (hid : IdOK r.id) : getId (serResponse r) = r.id := by
  rw [serResponse_eq]
  exact getId_of (w := []) hid (by simp [WsText]) (preId_id _) (resultTail_sep _ _).notNum

theorem errorTail_error (e : Option (JVal D)) :
    afterKey (lit "error") (errorTail e) = e.map (fun e => ser e ++ ['}']) := by
  cases e with
  | none => simp only [errorTail, Option.map_none]; rw [afterKey_skip (by decide), afterKey_nil]
  | some p => simp only [errorTail, Option.map_some]; rw [afterKey_skip (by decide), afterKey_hit]

theorem errorTail_result (e : Option (JVal D)) (he : ∀ v, e = some v → v.Wire ∧ ¬ v.HasKey (lit "result")) :
    afterKey (lit "result") (errorTail e) = none := by
  cases e with
  | none => simp only [errorTail]; rw [afterKey_skip (by decide), afterKey_nil]
  | some v =>
    have hv := he v rfl
    simp only [errorTail]
    rw [afterKey_skip (by decide), afterKey_member (by decide) (by intro c hc; revert c; decide) (by decide),
      ak_value (by decide) v hv.1 hv.2 _ (.brace _), afterKey_skip (by decide), afterKey_nil]

theorem resultTail_result (r e : Option (JVal D)) (v : JVal D) (h : r = some v) :
    afterKey (lit "result") (resultTail r e) = some (ser v ++ errorTail e) := by
  subst h; simp only [resultTail]; rw [afterKey_skip (by decide), afterKey_hit]

theorem resultTail_error (r e : Option (JVal D)) (hr : ∀ v, r = some v → v.Wire ∧ ¬ v.HasKey (lit "error")) :
    afterKey (lit "error") (resultTail r e) = afterKey (lit "error") (errorTail e) := by
  cases r with
  | none => rfl
  | some v =>
    have hv := hr v rfl
    simp only [resultTail]
    rw [afterKey_skip (by decide), afterKey_member (by decide) (by intro c hc; revert c; decide) (by decide),
      ak_value (by decide) v hv.1 hv.2 _ (errorTail_sep _)]

/-! ### Classification -/

theorem hasTopLevelKey_of_brace (t key : Bytes) : hasTopLevelKey ('{' :: t) key = scanTop key 1 t := by
  rw [hasTopLevelKey, skipWs_cons (by decide)]; rfl

theorem scan_id {key : Bytes} {id : RpcId} (hid : IdPlain id) {t : Bytes} (ht : Sep t) :
    scanTop key 1 (serId id ++ t) = scanTop key 1 t := by
  cases id with
  | str s =>
    simp only [serId, List.cons_append, List.append_assoc, List.nil_append]
    exact scanTop_value_str key _ _ t (by rw [scanStr_plain s _ hid]) ht
  | int i => exact scanTop_skips t (fun c hc => numChar_ok (intDec_chars (i := i) hc))
  | null => exact scanTop_skips t (by decide)

theorem plain_lit (s : String) (h : ∀ c ∈ s.toList, c ≠ '"' ∧ c ≠ '\\') : PlainText (lit s) := h

/-- Scanning past `"jsonrpc":"2.0",`. -/
theorem scan_jsonrpc {key : Bytes} (hk : key ≠ lit "jsonrpc") (t : Bytes) :
    scanTop key 1 ('"' :: (lit "jsonrpc" ++ '"' :: ':' :: '"' :: (lit "2.0" ++ '"' :: ',' :: t))) = scanTop key 1 t := by
  rw [scanTop_member_ne key 1 _ _ (plain_lit _ (by decide)) (.inr (Ne.symm hk)),
    scanTop_value_str key 1 _ _ (by rw [scanStr_plain _ _ (plain_lit _ (by decide))]) (.comma _),
    scanTop_skip (by decide) (by decide) (by decide)]

theorem preId_eq (t : Bytes) : preId ++ t = '{' :: '"' :: (lit "jsonrpc" ++ '"' :: ':' :: '"' :: (lit "2.0" ++ '"' :: ',' ::
    '"' :: (lit "id" ++ '"' :: ':' :: t))) := by simp [preId, lit]

theorem hasTop_preId_id (t : Bytes) : hasTopLevelKey (preId ++ t) (lit "id") = true := by
  rw [preId_eq, hasTopLevelKey_of_brace, scan_jsonrpc (by decide), scanTop_member_eq _ _ (plain_lit _ (by decide))]

theorem hasTop_preId {key : Bytes} (h1 : key ≠ lit "jsonrpc") (h2 : key ≠ lit "id") (t : Bytes) :
    hasTopLevelKey (preId ++ t) key = scanTop key 1 t := by
  rw [preId_eq, hasTopLevelKey_of_brace, scan_jsonrpc h1,
    scanTop_member_ne _ _ _ _ (plain_lit _ (by decide)) (.inr (Ne.symm h2))]

theorem scan_paramsTail {key : Bytes} (h : key ≠ lit "params") (p : Option (JVal D)) (hp : ∀ v, p = some v → v.Wire) :
    scanTop key 1 (paramsTail p) = false := by
  cases p with
  | none => exact scanTop_end key []
  | some v =>
    simp only [paramsTail]
    rw [scanTop_skip (by decide) (by decide) (by decide),
      scanTop_member_ne _ _ _ _ (plain_lit _ (by decide)) (.inr (Ne.symm h)), sc_value key 0 v (hp v rfl) _ (.brace _)]
    exact scanTop_end key []

theorem scan_method {key : Bytes} (h : key ≠ lit "method") (h' : key ≠ lit "params") {m : Bytes} (hm : PlainText m)
    (p : Option (JVal D)) (hp : ∀ v, p = some v → v.Wire) :
    scanTop key 1 ('"' :: (lit "method" ++ '"' :: ':' :: '"' :: (m ++ '"' :: paramsTail p))) = false := by
  rw [scanTop_member_ne _ _ _ _ (plain_lit _ (by decide)) (.inr (Ne.symm h)),
    scanTop_value_str key 1 _ _ (by rw [scanStr_plain m _ hm]) (paramsTail_sep p), scan_paramsTail h' p hp]

theorem containsSub_of_infix {pat s : Bytes} (h : pat <:+: s) : containsSub pat s = true := by
  unfold containsSub
  cases hs : splitSub pat s with
  | none => exact absurd h (splitSub_eq_none hs)
  | some _ => rfl

theorem containsSub_iff (pat s : Bytes) : containsSub pat s = true ↔ pat <:+: s := by
  refine ⟨fun h => ?_, containsSub_of_infix⟩
  unfold containsSub at h
  cases hs : splitSub pat s with
  | none => simp [hs] at h
  | some p => exact ⟨p.1, p.2, (splitSub_sound (a := p.1) (b := p.2) hs).symm⟩

theorem request_top (r : Request D) (hid : IdPlain r.id) (hm : PlainText r.method)
    (hp : ∀ v, r.params = some v → v.Wire) :
    hasTopLevelKey (serRequest r) (lit "result") = false ∧ hasTopLevelKey (serRequest r) (lit "error") = false ∧
    hasTopLevelKey (serRequest r) (lit "id") = true ∧ containsSub (lit "\"method\"") (serRequest r) = true := by
  rw [serRequest_eq]
  refine ⟨?_, ?_, hasTop_preId_id _, ?_⟩
  · rw [hasTop_preId (by decide) (by decide), scan_id hid (.comma _), scanTop_skip (by decide) (by decide) (by decide),
      scan_method (by decide) (by decide) hm _ hp]
  · rw [hasTop_preId (by decide) (by decide), scan_id hid (.comma _), scanTop_skip (by decide) (by decide) (by decide),
      scan_method (by decide) (by decide) hm _ hp]
  · apply containsSub_of_infix
    exact ⟨preId ++ (serId r.id ++ [',']), ':' :: '"' :: (r.method ++ '"' :: paramsTail r.params), by simp [lit]⟩

theorem notification_top (r : Notification D) (hm : PlainText r.method) (hp : ∀ v, r.params = some v → v.Wire) :
    hasTopLevelKey (serNotification r) (lit "result") = false ∧ hasTopLevelKey (serNotification r) (lit "error") = false ∧
    hasTopLevelKey (serNotification r) (lit "id") = false ∧
    containsSub (lit "\"method\"") (serNotification r) = true := by
  rw [serNotification_eq]
  refine ⟨?_, ?_, ?_, ?_⟩
  · rw [hasTopLevelKey_of_brace, scan_jsonrpc (by decide), scan_method (by decide) (by decide) hm _ hp]
  · rw [hasTopLevelKey_of_brace, scan_jsonrpc (by decide), scan_method (by decide) (by decide) hm _ hp]
  · rw [hasTopLevelKey_of_brace, scan_jsonrpc (by decide), scan_method (by decide) (by decide) hm _ hp]
  · apply containsSub_of_infix
    exact ⟨lit "{\"jsonrpc\":\"2.0\",", ':' :: '"' :: (r.method ++ '"' :: paramsTail r.params), by simp [lit]⟩

theorem response_top (r : Response D) (hid : IdPlain r.id) (hr : ∀ v, r.result = some v → v.Wire)
    (hne : r.result ≠ none ∨ r.error ≠ none) :
    (hasTopLevelKey (serResponse r) (lit "result") || hasTopLevelKey (serResponse r) (lit "error")) = true := by
  rw [serResponse_eq, hasTop_preId (by decide) (by decide), hasTop_preId (by decide) (by decide),
    scan_id hid (resultTail_sep _ _), scan_id hid (resultTail_sep _ _)]
  cases hres : r.result with
  | some v =>
    simp only [resultTail]
    rw [scanTop_skip (by decide) (by decide) (by decide), scanTop_member_eq _ _ (plain_lit _ (by decide)), Bool.true_or]
  | none =>
    cases herr : r.error with
    | none => simp [hres, herr] at hne
    | some e =>
      simp only [resultTail, errorTail]
      rw [scanTop_skip (c := ',') (key := lit "error") (by decide) (by decide) (by decide),
        scanTop_member_eq (lit "error") _ (plain_lit _ (by decide)), Bool.or_true]

end Verif
