import Verif.Json.Total
import Verif.Json.Complete

/-!
Property theorems about JSON texts: C01, C02, C03, C55.
-/

namespace Verif

/-- A double type without values: used for witnesses that involve no doubles. -/
instance : DblFmt Empty := ⟨fun d => d.elim, fun _ => none⟩

section
variable {D : Type} [DblFmt D]

/-- **C01.** Serialising any string and parsing the text, followed by anything, gives back exactly the string and
leaves exactly what followed. -/
theorem C01_string_roundtrip (s rest : Bytes) :
    parseJson (D := D) (ser (D := D) (.str s) ++ rest) = .ok (.str s) rest := by
  rw [parseJson, parseValue.eq_def]
  simp only [ser, serStr, List.cons_append, List.append_assoc, List.nil_append,
    skipWs_cons (show isWs '"' = false by decide), if_true]
  rw [strBody_escStr]; rfl

/-- C01 in an object key or wherever `parseString` is called directly. -/
theorem C01_parseString_roundtrip (s rest : Bytes) : parseString (serStr s ++ rest) = .ok s rest := by
  simp only [parseString, serStr, List.cons_append, List.append_assoc, List.nil_append,
    skipWs_cons (show isWs '"' = false by decide)]
  exact strBody_escStr s rest

/-- The serialised string never contains an unescaped control character (so it is one line of valid JSON). -/
theorem C01_no_control (s : Bytes) : ∀ c ∈ serStr s, 32 ≤ c.toNat := by
  have hx : ∀ n, n < 16 → 32 ≤ (hexDigit n).toNat := by decide
  have hc : ∀ c : Char, ∀ x ∈ escCh c, 32 ≤ x.toNat := by
    intro c x hx'
    unfold escCh at hx'
    split at hx'
    · simp at hx'; rcases hx' with rfl | rfl <;> decide
    split at hx'
    · simp at hx'; subst hx'; decide
    split at hx'
    · simp at hx'; rcases hx' with rfl | rfl <;> decide
    split at hx'
    · simp at hx'; rcases hx' with rfl | rfl <;> decide
    split at hx'
    · simp at hx'; rcases hx' with rfl | rfl <;> decide
    split at hx'
    · simp at hx'; rcases hx' with rfl | rfl <;> decide
    split at hx'
    · simp at hx'; rcases hx' with rfl | rfl <;> decide
    split at hx'
    · next h =>
      simp only [List.mem_cons, List.not_mem_nil, or_false] at hx'
      rcases hx' with rfl | rfl | rfl | rfl | rfl | rfl
      · decide
      · decide
      · decide
      · decide
      · exact hx _ (by omega)
      · exact hx _ (by omega)
    · simp at hx'; subst hx'; omega
  have he : ∀ s : Bytes, ∀ c ∈ escStr s, 32 ≤ c.toNat := by
    intro s
    induction s with
    | nil => simp [escStr]
    | cons a r ih =>
      intro c h
      simp only [escStr, List.mem_append] at h
      rcases h with h | h
      · exact hc a c h
      · exact ih c h
  intro c h
  simp only [serStr, List.mem_cons, List.mem_append, List.not_mem_nil, or_false] at h
  rcases h with rfl | h | rfl
  · decide
  · exact he s c h
  · decide

/-- **C02 (partial).** Every value whose object member names are distinct and free of quotes and backslashes, whose
integers fit 64 bits and whose doubles survive `to_string`/`stod`, survives serialise-then-parse, whatever follows the
text (as long as the follow-up does not continue a number). Missing from the full statement: other member names and
doubles, for which it is false (`C02_key_counterexample`, `C02_double_counterexample`). -/
theorem C02_value_roundtrip_partial (v : JVal D) (hv : v.Wire) (rest : Bytes) (hr : NumStop rest) :
    parseJson (ser v ++ rest) = .ok v rest := by
  have h := rt_value v hv (2 * (ser v ++ rest).length + 2) (by simp; omega) rest hr
  exact h

/-- The values of `C02_value_roundtrip_partial` include nested objects and arrays with any string contents. -/
example : (JVal.obj [(lit "a", .arr [.int (-5), .str ['"', '\\', '\n'], .null]), (lit "b", .obj [])] : JVal Empty).Wire := by
  simp [JVal.Wire, WireList, WireFields, PlainText, Int64OK, lit]

/-- **C02 fails** for a member name containing a quote: the text is not even parseable. -/
theorem C02_key_counterexample :
    ∃ v : JVal Empty, parseJson (D := Empty) (ser v) = .throw ∧ ∃ k, v = .obj [(k, .null)] :=
  ⟨.obj [(lit "a\"b", .null)], by rfl, _, rfl⟩

/-- **C02 fails** for a member name containing a backslash: it parses to a different name. -/
theorem C02_backslash_key_counterexample :
    ∃ (k k' : Bytes), k ≠ k' ∧ parseJson (D := Empty) (ser (.obj [(k, .null)] : JVal Empty)) = .ok (.obj [(k', .null)]) [] :=
  ⟨lit "a\\nb", lit "a\nb", by decide, by rfl⟩

/-- **C02 fails** for doubles: of two different doubles with the same six-decimal text (such as `0.0` and `1e-9`), at
least one is not read back. -/
theorem C02_double_counterexample (d1 d2 : D) (hne : d1 ≠ d2) (hp : DblFmt.print d1 = DblFmt.print d2) :
    ¬ (parseJson (ser (.dbl d1 : JVal D)) = .ok (.dbl d1) [] ∧ parseJson (ser (.dbl d2 : JVal D)) = .ok (.dbl d2) []) := by
  rintro ⟨h1, h2⟩
  simp only [ser] at h1 h2
  rw [hp, h2] at h1
  simp only [PR.ok.injEq, JVal.dbl.injEq, and_true] at h1
  exact hne h1.symm

/-- **C03.** The parser always returns: it never runs out of the model's fuel, which grows linearly with the input. -/
theorem C03_terminates (s : Bytes) : parseJson (D := D) s ≠ .fuel :=
  (parse_no_fuel (2 * s.length + 2)).1 s (by omega)

/-- C03: the fuel is not observable: any larger amount gives the same outcome. -/
theorem C03_fuel_irrelevant (s : Bytes) (n : Nat) (h : 2 * s.length + 1 ≤ n) :
    parseValue (D := D) n s = parseJson s := parseValue_fuel_irrel s n h

/-- **C03.** Whatever the input, the unread text is a suffix of it. -/
theorem C03_forward (s r : Bytes) (v : JVal D) (h : parseJson s = .ok v r) : r <:+ s :=
  (parse_suffix (2 * s.length + 2)).1 s v r h

/-- **C55 (partial).** Every RFC 8259 text (any whitespace, any escape form, any member order, nested to any depth)
surrounded by whitespace is read as the value it denotes, the last value counting where a member name is repeated. Missing: escapes forming surrogate pairs and
integers outside 64 bits (see `C55_surrogate_counterexample`, `C55_bigint_counterexample`). -/
theorem C55_reads_json_partial (v : JVal D) (t w1 w2 : Bytes) (h : JText v t) (h1 : WsText w1) (h2 : WsText w2) :
    parseJson (w1 ++ (t ++ w2)) = .ok v w2 := by
  have hs : NumStop w2 := by simpa using numStop_ws (t := []) h2 (by intro c hc; simp at hc)
  obtain ⟨N, hN⟩ := complete_value h w2 hs
  rw [← C03_fuel_irrelevant _ (N + (2 * (w1 ++ (t ++ w2)).length + 1)) (by omega), parseValue_ws h1]
  exact hN _ (by omega)

example : JText (.obj [(lit "k", .arr [.bool true, .str ['A', '\n']])] : JVal Empty) (lit "{ \"k\":[true , \"\\u0041\\n\"]}") := by
  have h1 : JTexts [(.bool true : JVal Empty), .str ['A', '\n']] (lit "true , \"\\u0041\\n\"") :=
    .cons (w1 := []) (w2 := [' ']) (by simp [WsText]) .true (by simp [WsText])
      (.one (w1 := [' ']) (w2 := []) (by simp [WsText])
        (.str (.u (.dig 0 (by decide)) (.dig 0 (by decide)) (.dig 4 (by decide)) (.dig 1 (by decide)) 'A' (by decide) (.n .nil)))
        (by simp [WsText]))
  have h2 : JMembers [(lit "k", .arr [(.bool true : JVal Empty), .str ['A', '\n']])] (lit " \"k\":[true , \"\\u0041\\n\"]") :=
    .one (w1 := [' ']) (w2 := []) (w3 := []) (w4 := []) (by simp [WsText])
      (.raw 'k' (by decide) (by decide) .nil) (by simp [WsText]) (by simp [WsText]) (.arr h1) (by simp [WsText])
  exact .obj h2 rfl

/-- Repeated names: the last value, at the place of the first. -/
example : lastWins [(lit "a", 1), (lit "b", 2), (lit "a", 3)] = [(lit "a", 3), (lit "b", 2)] := by decide

/-- **C55 fails** for surrogate pairs: `"😀"` (U+1F600) is read as six bytes of CESU-8, not as the four UTF-8
bytes of the character. -/
theorem C55_surrogate_counterexample :
    ∃ s, parseJson (lit "\"\\ud83d\\ude00\"") = .ok (.str s : JVal Empty) [] ∧ s.length = 6 ∧
      s ≠ utf8Bytes (Char.ofNat 0x1F600) :=
  ⟨utf8 0xd83d ++ utf8 0xde00, by cbv, by rfl, fun h => absurd (congrArg List.length h) (by decide)⟩

/-- **C55 fails** for integers outside 64 bits: they silently become null. -/
theorem C55_bigint_counterexample :
    parseJson (lit "9223372036854775808") = .ok (.null : JVal Empty) [] := by rfl

/-- The parser also accepts texts that are not JSON: an unterminated string, or an array with a missing element. -/
theorem C55_accepts_invalid :
    parseJson (lit "\"abc") = .ok (.str (lit "abc") : JVal Empty) [] ∧
    parseJson (lit "[,1]") = .ok (.arr [.null, .int 1] : JVal Empty) [] := ⟨by rfl, by rfl⟩

end
end Verif
