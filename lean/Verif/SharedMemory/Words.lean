import Verif.Rpc.Props

/-!
Where a quoted word can stand in the text of a message: the search `message.find("\"word\"")`, as in src/mcp/SharedMemoryTransport.cpp 86,
finds a member of that name or a string equal to the word, and nothing else.
-/

namespace Verif
namespace Shm

variable {D : Type} [DblFmt D]

/-- The text `"w"`. -/
def quoted (w : Bytes) : Bytes := '"' :: (w ++ ['"'])

/-- The string is the word, or ends with a quote and the word. -/
def SaysText (w s : Bytes) : Prop := s = w ∨ ('"' :: w) <:+ s

mutual
/-- The value has a member named `w`, or a string that says `w`, at any depth. -/
def SaysWord (w : Bytes) : JVal D → Prop
  | .str s => SaysText w s
  | .arr l => SaysWordList w l
  | .obj m => SaysWordFields w m
  | _ => False
def SaysWordList (w : Bytes) : List (JVal D) → Prop
  | [] => False
  | v :: r => SaysWord w v ∨ SaysWordList w r
def SaysWordFields (w : Bytes) : List (Bytes × JVal D) → Prop
  | [] => False
  | (k, v) :: r => k = w ∨ SaysWord w v ∨ SaysWordFields w r
end

theorem has_cons {w : Bytes} {c : Char} {t : Bytes} (h : ¬ quoted w <+: c :: t) : quoted w <:+: c :: t ↔ quoted w <:+: t := by
  rw [List.infix_cons_iff]
  exact ⟨fun h1 => h1.resolve_left h, .inr⟩

theorem has_skip {w : Bytes} {c : Char} {t : Bytes} (h : c ≠ '"') : quoted w <:+: c :: t ↔ quoted w <:+: t :=
  has_cons (by simp [quoted, List.cons_prefix_cons, Ne.symm h])

theorem has_quote {w t : Bytes} (h : ¬ (w ++ ['"']) <+: t) : quoted w <:+: '"' :: t ↔ quoted w <:+: t :=
  has_cons (by simpa [quoted, List.cons_prefix_cons] using h)

theorem has_skips {w : Bytes} : ∀ {q : Bytes} (t : Bytes), '"' ∉ q → (quoted w <:+: q ++ t ↔ quoted w <:+: t)
  | [], _, _ => Iff.rfl
  | c :: q, t, h => by
    simp only [List.mem_cons, not_or] at h
    rw [List.cons_append, has_skip (Ne.symm h.1), has_skips t h.2]

theorem has_here (w t : Bytes) : quoted w <:+: '"' :: (w ++ '"' :: t) := ⟨[], t, by simp [quoted]⟩

theorem has_closing {w t : Bytes} (hw : AlphaKey w) (ht : ∀ c ∈ t.head?, ¬ (97 ≤ c.toNat ∧ c.toNat ≤ 122)) :
    quoted w <:+: '"' :: t ↔ quoted w <:+: t := by
  apply has_quote
  obtain ⟨hne, hk⟩ := hw
  cases w with
  | nil => exact absurd rfl hne
  | cons a r =>
    cases t with
    | nil => simp
    | cons b t =>
      rw [List.cons_append, List.cons_prefix_cons]
      rintro ⟨rfl, _⟩
      exact ht a (by simp) (hk a (by simp))

theorem noMatch_word : ∀ (X w t : Bytes), '"' ∉ w → X ≠ w → '"' ∉ X → ¬ (w ++ ['"']) <+: (X ++ '"' :: t)
  | [], [], t, _, h, _ => absurd rfl h
  | [], c :: w, t, hw, _, _ => by
    simp only [List.mem_cons, not_or] at hw; simp [List.cons_prefix_cons, Ne.symm hw.1]
  | x :: X, [], t, _, _, hX => by
    simp only [List.mem_cons, not_or] at hX; simp [List.cons_prefix_cons, hX.1]
  | x :: X, c :: w, t, hw, h, hX => by
    simp only [List.mem_cons, not_or] at hw hX
    rw [List.cons_append, List.cons_append, List.cons_prefix_cons]
    rintro ⟨rfl, h1⟩
    exact noMatch_word X w t hw.2 (by rintro rfl; exact h rfl) hX.2 h1

/-- In an escaped string a quote comes after a backslash. -/
theorem noMatch_escWord : ∀ (s w t : Bytes), '"' ∉ w → '\\' ∉ w → s ≠ w → ¬ (w ++ ['"']) <+: (escStr s ++ '"' :: t)
  | [], w, t, hw, _, h => noMatch_word [] w t hw h (by simp)
  | c :: s, w, t, hw, hw', h => by
    rw [escStr]
    rcases escCh_shape c with ⟨h1, h2, h3⟩ | ⟨x, r, h3, _⟩
    · rw [h3]
      cases w with
      | nil => simp [List.cons_prefix_cons, Ne.symm h1]
      | cons a w =>
        simp only [List.mem_cons, not_or] at hw hw'
        simp only [List.cons_append, List.nil_append, List.cons_prefix_cons]
        rintro ⟨rfl, h4⟩
        exact noMatch_escWord s w t hw.2 hw'.2 (by rintro rfl; exact h rfl) h4
    · rw [h3]
      cases w with
      | nil => simp [List.cons_prefix_cons]
      | cons a w =>
        simp only [List.mem_cons, not_or] at hw'
        simp [List.cons_prefix_cons, Ne.symm hw'.1]

/-- The escaped string itself, followed by its closing quote: exactly one string matches there. -/
theorem match_esc {s w : Bytes} (t : Bytes) (hw : AlphaKey w) : (w ++ ['"']) <+: (escStr s ++ '"' :: t) ↔ s = w := by
  refine ⟨fun h => Decidable.byContradiction fun hz => noMatch_escWord s w t hw.noQuote hw.noSlash hz h, ?_⟩
  rintro rfl
  have : escStr s = s := by
    have hs := hw.2
    clear hw
    induction s with
    | nil => rfl
    | cons c s ih =>
      have hc := hs c (by simp)
      rw [escStr, ih (fun x hx => hs x (by simp [hx]))]
      have ho : escCh c = [c] := by
        unfold escCh
        rw [if_neg, if_neg, if_neg, if_neg, if_neg, if_neg, if_neg, if_neg]
        · omega
        all_goals (intro he; first | omega | (subst he; revert hc; decide))
      rw [ho]; rfl
  rw [this]
  exact ⟨t, by simp⟩

/-- Inside an escaped string a word ends only at its closing quote. -/
theorem has_inner : ∀ (s w t : Bytes), AlphaKey w → (∀ c ∈ t.head?, ¬ (97 ≤ c.toNat ∧ c.toNat ≤ 122)) →
    (quoted w <:+: escStr s ++ '"' :: t ↔ ('"' :: w) <:+ s ∨ quoted w <:+: t)
  | [], w, t, hw, ht => by
    rw [escStr, List.nil_append, has_closing hw ht]
    simp
  | c :: s, w, t, hw, ht => by
    have ih := has_inner s w t hw ht
    rw [escStr]
    rcases escCh_shape c with ⟨h1, h2, h3⟩ | ⟨x, r, h3, h4⟩
    · rw [h3, List.cons_append, List.nil_append, List.cons_append, has_skip h1, ih, List.suffix_cons_iff]
      simp [Ne.symm h1]
    · rw [h3]
      simp only [List.cons_append, List.append_assoc]
      rw [has_skip (by decide)]
      by_cases hx : x = '"'
      · subst hx
        have hc : r = [] ∧ c = '"' := by
          unfold escCh at h3
          split at h3
          · exact ⟨by simpa using h3.symm, by assumption⟩
          repeat' split at h3
          all_goals simp at h3
        obtain ⟨rfl, rfl⟩ := hc
        rw [List.nil_append, List.infix_cons_iff, ih, List.suffix_cons_iff]
        simp only [quoted, List.cons_prefix_cons, true_and, match_esc t hw, List.cons.injEq, eq_comm (a := w), or_assoc]
      · have hc : c ≠ '"' := by
          rintro rfl
          simp [escCh] at h3
          exact hx h3.1.symm
        rw [has_skip hx, has_skips _ (fun h => (h4 _ h).1 rfl), ih, List.suffix_cons_iff]
        simp [Ne.symm hc]

theorem has_serStr {w : Bytes} (hw : AlphaKey w) {t : Bytes} (ht : Sep t) (s : Bytes) :
    quoted w <:+: serStr s ++ t ↔ SaysText w s ∨ quoted w <:+: t := by
  simp only [serStr, List.cons_append, List.append_assoc, List.nil_append]
  rw [List.infix_cons_iff, has_inner s w t hw ht.notAlpha]
  simp only [quoted, List.cons_prefix_cons, true_and, match_esc t hw, SaysText, or_assoc]

theorem has_member {w : Bytes} (hw : AlphaKey w) {k t : Bytes} (hp : PlainText k) :
    quoted w <:+: '"' :: (k ++ '"' :: ':' :: t) ↔ k = w ∨ quoted w <:+: t := by
  by_cases h : k = w
  · subst h; exact ⟨fun _ => .inl rfl, fun _ => has_here _ _⟩
  · rw [has_quote (noMatch_word k w _ hw.noQuote h hp.noQuote), has_skips _ hp.noQuote, has_closing hw not_alpha_colon,
      has_skip (by decide)]
    simp [h]

/-- A string written without escapes, as ids and methods are. -/
theorem has_raw {w : Bytes} (hw : AlphaKey w) {k t : Bytes} (hp : '"' ∉ k) (ht : Sep t) :
    quoted w <:+: '"' :: (k ++ '"' :: t) ↔ k = w ∨ quoted w <:+: t := by
  by_cases h : k = w
  · subst h; exact ⟨fun _ => .inl rfl, fun _ => has_here _ _⟩
  · rw [has_quote (noMatch_word k w _ hw.noQuote h hp), has_skips _ hp, has_closing hw ht.notAlpha]
    simp [h]

mutual
theorem has_value {w : Bytes} (hw : AlphaKey w) (v : JVal D) (hv : v.Wire) (t : Bytes) (ht : Sep t) :
    quoted w <:+: ser v ++ t ↔ SaysWord w v ∨ quoted w <:+: t := by
  match v, hv with
  | .null, _ => simp only [ser, SaysWord, false_or]; exact has_skips t (by decide)
  | .bool true, _ => simp only [ser, SaysWord, false_or]; exact has_skips t (by decide)
  | .bool false, _ => simp only [ser, SaysWord, false_or]; exact has_skips t (by decide)
  | .int i, _ => simp only [SaysWord, false_or]; exact has_skips t (by simpa [ser] using intDec_noQuote i)
  | .dbl d, hv => simp only [SaysWord, false_or]; exact has_skips t (by simpa [ser] using dbl_noQuote (by simpa [JVal.Wire] using hv))
  | .str s, _ => simp only [ser, SaysWord]; exact has_serStr hw ht s
  | .arr l, hv =>
    have h := has_list hw l (by simpa [JVal.Wire] using hv) t
    simp only [ser, List.cons_append, List.append_assoc, List.nil_append, SaysWord]
    rw [has_skip (by decide), h]
  | .obj m, hv =>
    have hv' : WireFields m ∧ (m.map Prod.fst).Nodup := by simpa only [JVal.Wire] using hv
    have h := has_fields hw m hv'.1 t
    simp only [ser, List.cons_append, List.append_assoc, List.nil_append, SaysWord]
    rw [has_skip (by decide), h]
theorem has_list {w : Bytes} (hw : AlphaKey w) (l : List (JVal D)) (hl : WireList l) (t : Bytes) :
    quoted w <:+: serList l ++ ']' :: t ↔ SaysWordList w l ∨ quoted w <:+: t := by
  match l, hl with
  | [], _ => simp only [serList, List.nil_append, SaysWordList, false_or]; exact has_skip (by decide)
  | [v], hl =>
    simp only [WireList] at hl
    simp only [serList, SaysWordList, or_false]
    rw [has_value hw v hl.1 _ (.bracket t), has_skip (by decide)]
  | v :: u :: r, hl =>
    rw [WireList] at hl
    rw [SaysWordList]
    simp only [serList, List.append_assoc, List.cons_append]
    rw [has_value hw v hl.1 _ (.comma _), has_skip (by decide), has_list hw (u :: r) hl.2, or_assoc]
theorem has_fields {w : Bytes} (hw : AlphaKey w) (l : List (Bytes × JVal D)) (hl : WireFields l) (t : Bytes) :
    quoted w <:+: serFields l ++ '}' :: t ↔ SaysWordFields w l ∨ quoted w <:+: t := by
  match l, hl with
  | [], _ => simp only [serFields, List.nil_append, SaysWordFields, false_or]; exact has_skip (by decide)
  | [(k, v)], hl =>
    simp only [WireFields] at hl
    simp only [serFields, List.append_assoc, List.cons_append, SaysWordFields, or_false]
    rw [has_member hw hl.1, has_value hw v hl.2.1 _ (.brace t), has_skip (by decide), or_assoc]
  | (k, v) :: u :: r, hl =>
    rw [WireFields] at hl
    rw [SaysWordFields]
    simp only [serFields, List.append_assoc, List.cons_append]
    rw [has_member hw hl.1, has_value hw v hl.2.1 _ (.comma _), has_skip (by decide), has_fields hw (u :: r) hl.2.2, or_assoc, or_assoc]
end

/-- The id is the word. -/
def SaysId (w : Bytes) : RpcId → Prop
  | .str s => s = w
  | _ => False

theorem has_preId {w : Bytes} (hw : AlphaKey w) (h1 : w ≠ lit "jsonrpc") (h2 : w ≠ lit "id") (t : Bytes) :
    quoted w <:+: preId ++ t ↔ quoted w <:+: t := by
  have e : preId ++ t = '{' :: '"' :: (lit "jsonrpc" ++ '"' :: ':' :: '"' :: (lit "2.0" ++ '"' :: ',' ::
      '"' :: (lit "id" ++ '"' :: ':' :: t))) := by simp [preId, lit]
  have h3 : lit "2.0" ≠ w := by
    rintro rfl; exact absurd hw (by decide)
  rw [e, has_skip (by decide), has_member hw (by intro c hc; revert c; decide), has_raw hw (by decide) (.comma _), has_skip (by decide),
    has_member hw (by intro c hc; revert c; decide)]
  simp [Ne.symm h1, Ne.symm h2, h3]

theorem has_serId {w : Bytes} (hw : AlphaKey w) {id : RpcId} (hid : IdOK id) {t : Bytes} (ht : Sep t) :
    quoted w <:+: serId id ++ t ↔ SaysId w id ∨ quoted w <:+: t := by
  cases id with
  | str s =>
    simp only [serId, List.cons_append, List.append_assoc, List.nil_append]
    exact has_raw hw hid ht
  | int i => simp only [SaysId, false_or]; exact has_skips t (intDec_noQuote i)
  | null => simp only [SaysId, false_or]; exact has_skips t (by decide)

/-- The parameters say the word. -/
def SaysParams (w : Bytes) (p : Option (JVal D)) : Prop := ∃ v, p = some v ∧ SaysWord w v

theorem has_paramsTail {w : Bytes} (hw : AlphaKey w) (h : w ≠ lit "params") (p : Option (JVal D)) (hp : ∀ v, p = some v → v.Wire) :
    quoted w <:+: paramsTail p ↔ SaysParams w p := by
  have hnil : ¬ quoted w <:+: [] := by simp [quoted]
  cases p with
  | none =>
    rw [paramsTail, has_skip (by decide)]
    exact ⟨fun h => absurd h hnil, by rintro ⟨v, hv, _⟩; cases hv⟩
  | some v =>
    rw [paramsTail, has_skip (by decide), has_member hw (by intro c hc; revert c; decide), has_value hw v (hp v rfl) _ (.brace _),
      has_skip (by decide)]
    constructor
    · rintro (h1 | h1 | h1)
      · exact absurd h1.symm h
      · exact ⟨v, rfl, h1⟩
      · exact absurd h1 hnil
    · rintro ⟨u, hu, h1⟩
      cases hu
      exact .inr (.inl h1)

/-- **Where a request says a word**: in its id, its method, or its parameters. -/
theorem has_request {w : Bytes} (hw : AlphaKey w) (h1 : w ≠ lit "jsonrpc") (h2 : w ≠ lit "id") (h3 : w ≠ lit "method") (h4 : w ≠ lit "params")
    (r : Request D) (hid : IdOK r.id) (hm : '"' ∉ r.method) (hp : ∀ v, r.params = some v → v.Wire) :
    quoted w <:+: serRequest r ↔ SaysId w r.id ∨ r.method = w ∨ SaysParams w r.params := by
  rw [serRequest_eq, has_preId hw h1 h2, has_serId hw hid (.comma _), has_skip (by decide), has_member hw (by intro c hc; revert c; decide),
    has_raw hw hm (paramsTail_sep _), has_paramsTail hw h4 _ hp]
  simp [Ne.symm h3]

/-- The same for a notification. -/
theorem has_notification {w : Bytes} (hw : AlphaKey w) (h1 : w ≠ lit "jsonrpc") (h3 : w ≠ lit "method") (h4 : w ≠ lit "params")
    (n : Notification D) (hm : '"' ∉ n.method) (hp : ∀ v, n.params = some v → v.Wire) :
    quoted w <:+: serNotification n ↔ n.method = w ∨ SaysParams w n.params := by
  have h5 : lit "2.0" ≠ w := by
    rintro rfl; exact absurd hw (by decide)
  rw [serNotification_eq, has_skip (by decide), has_member hw (by intro c hc; revert c; decide), has_raw hw (by decide) (.comma _),
    has_skip (by decide), has_member hw (by intro c hc; revert c; decide), has_raw hw hm (paramsTail_sep _), has_paramsTail hw h4 _ hp]
  simp [Ne.symm h1, Ne.symm h3, h5]

end Shm
end Verif
