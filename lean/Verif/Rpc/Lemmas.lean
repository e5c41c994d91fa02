import Verif.Rpc.Model
import Verif.Json.Total

/-! Lemmas about textual key search and top-level scanning over serialised values. -/

namespace Verif

/-- A non-empty lower-case word. -/
def AlphaKey (k : Bytes) : Prop := k ≠ [] ∧ ∀ c ∈ k, 97 ≤ c.toNat ∧ c.toNat ≤ 122

instance (k : Bytes) : Decidable (AlphaKey k) := by unfold AlphaKey; infer_instance

theorem AlphaKey.noQuote {k : Bytes} (h : AlphaKey k) : '"' ∉ k := by
  intro hm; have := (h.2 _ hm).1; revert this; decide

theorem AlphaKey.noSlash {k : Bytes} (h : AlphaKey k) : '\\' ∉ k := by
  intro hm; have := (h.2 _ hm).1; revert this; decide

theorem afterKey_cons {k : Bytes} {c : Char} {t : Bytes} (h : ¬ keyPat k <+: c :: t) :
    afterKey k (c :: t) = afterKey k t := by
  unfold afterKey
  rw [splitSub, if_neg (by rw [List.isPrefixOf_iff_prefix]; exact h)]
  simp [Option.map_map, Function.comp_def]

theorem afterKey_skip {k : Bytes} {c : Char} {t : Bytes} (h : c ≠ '"') : afterKey k (c :: t) = afterKey k t :=
  afterKey_cons (by simp [keyPat, List.cons_prefix_cons, Ne.symm h])

theorem afterKey_quote {k t : Bytes} (h : ¬ (k ++ ['"', ':']) <+: t) : afterKey k ('"' :: t) = afterKey k t :=
  afterKey_cons (by simpa [keyPat, List.cons_prefix_cons] using h)

theorem afterKey_hit (k t : Bytes) : afterKey k ('"' :: (k ++ '"' :: ':' :: t)) = some t := by
  unfold afterKey
  rw [splitSub, if_pos (by rw [List.isPrefixOf_iff_prefix]; exact ⟨t, by simp [keyPat]⟩)]
  simp [keyPat]

theorem afterKey_nil (k : Bytes) : afterKey k [] = none := by simp [afterKey, splitSub, keyPat]

theorem afterKey_skips {k : Bytes} : ∀ {q : Bytes} (t : Bytes), '"' ∉ q → afterKey k (q ++ t) = afterKey k t
  | [], _, _ => rfl
  | c :: q, t, h => by
    simp only [List.mem_cons, not_or] at h
    rw [List.cons_append, afterKey_skip (Ne.symm h.1), afterKey_skips t h.2]

/-- A closing quote followed by something that is not a letter cannot start a key. -/
theorem afterKey_closing {k t : Bytes} (hk : AlphaKey k) (ht : ∀ c ∈ t.head?, ¬ (97 ≤ c.toNat ∧ c.toNat ≤ 122)) :
    afterKey k ('"' :: t) = afterKey k t := by
  apply afterKey_quote
  obtain ⟨hne, hk⟩ := hk
  cases k with
  | nil => exact absurd rfl hne
  | cons a r =>
    cases t with
    | nil => simp
    | cons b t =>
      rw [List.cons_append, List.cons_prefix_cons]
      rintro ⟨rfl, _⟩
      exact ht a (by simp) (hk a (by simp))

theorem noMatch_raw : ∀ (X k t : Bytes), '"' ∉ k → t.head? ≠ some ':' → '"' ∉ X →
    ¬ (k ++ ['"', ':']) <+: (X ++ '"' :: t)
  | [], [], t, _, ht, _ => by
    cases t with
    | nil => simp [List.cons_prefix_cons]
    | cons b t => simp only [List.head?_cons, ne_eq, Option.some.injEq] at ht; simp [List.cons_prefix_cons, Ne.symm ht]
  | [], c :: k, t, hk, _, _ => by
    simp only [List.mem_cons, not_or] at hk; simp [List.cons_prefix_cons, Ne.symm hk.1]
  | x :: X, [], t, _, _, hX => by
    simp only [List.mem_cons, not_or] at hX; simp [List.cons_prefix_cons, hX.1]
  | x :: X, c :: k, t, hk, ht, hX => by
    simp only [List.mem_cons, not_or] at hk hX
    rw [List.cons_append, List.cons_append, List.cons_prefix_cons]
    exact fun h => noMatch_raw X k t hk.2 ht hX.2 h.2

theorem noMatch_key : ∀ (X k t : Bytes), '"' ∉ k → X ≠ k → '"' ∉ X → ¬ (k ++ ['"', ':']) <+: (X ++ '"' :: t)
  | [], [], t, _, h, _ => absurd rfl h
  | [], c :: k, t, hk, _, _ => by
    simp only [List.mem_cons, not_or] at hk; simp [List.cons_prefix_cons, Ne.symm hk.1]
  | x :: X, [], t, _, _, hX => by
    simp only [List.mem_cons, not_or] at hX; simp [List.cons_prefix_cons, hX.1]
  | x :: X, c :: k, t, hk, ht, hX => by
    simp only [List.mem_cons, not_or] at hk hX
    rw [List.cons_append, List.cons_append, List.cons_prefix_cons]
    rintro ⟨rfl, h⟩
    exact noMatch_key X k t hk.2 (by rintro rfl; exact ht rfl) hX.2 h

/-- Shape of an escaped character: itself, or a backslash, a character and a tail free of quotes and backslashes. -/
theorem escCh_shape (c : Char) :
    (c ≠ '"' ∧ c ≠ '\\' ∧ escCh c = [c]) ∨
    (∃ x r, escCh c = '\\' :: x :: r ∧ (∀ y ∈ r, y ≠ '"' ∧ y ≠ '\\')) := by
  unfold escCh
  split
  · exact .inr ⟨_, _, rfl, by simp⟩
  split
  · exact .inr ⟨_, _, rfl, by simp⟩
  split
  · exact .inr ⟨_, _, rfl, by simp⟩
  split
  · exact .inr ⟨_, _, rfl, by simp⟩
  split
  · exact .inr ⟨_, _, rfl, by simp⟩
  split
  · exact .inr ⟨_, _, rfl, by simp⟩
  split
  · exact .inr ⟨_, _, rfl, by simp⟩
  split
  · next h =>
    refine .inr ⟨_, _, rfl, ?_⟩
    have hx : ∀ n, n < 16 → hexDigit n ≠ '"' ∧ hexDigit n ≠ '\\' := by decide
    have h1 := hx (c.toNat / 16) (by omega)
    have h2 := hx (c.toNat % 16) (by omega)
    intro y hy
    simp only [List.mem_cons, List.not_mem_nil, or_false] at hy
    rcases hy with rfl | rfl | rfl | rfl
    · decide
    · decide
    · exact h1
    · exact h2
  · next h1 h2 _ _ _ _ _ _ => exact .inl ⟨h1, h2, rfl⟩

theorem noMatch_esc : ∀ (s k t : Bytes), '"' ∉ k → '\\' ∉ k → t.head? ≠ some ':' →
    ¬ (k ++ ['"', ':']) <+: (escStr s ++ '"' :: t)
  | [], k, t, hk, _, ht => noMatch_raw [] k t hk ht (by simp)
  | c :: s, k, t, hk, hk', ht => by
    rw [escStr]
    rcases escCh_shape c with ⟨h1, h2, h3⟩ | ⟨x, r, h3, _⟩
    · rw [h3]
      cases k with
      | nil => simp [List.cons_prefix_cons, Ne.symm h1]
      | cons a k =>
        simp only [List.mem_cons, not_or] at hk hk'
        simp only [List.cons_append, List.nil_append, List.cons_prefix_cons]
        exact fun h => noMatch_esc s k t hk.2 hk'.2 ht h.2
    · rw [h3]
      cases k with
      | nil => simp [List.cons_prefix_cons]
      | cons a k =>
        simp only [List.mem_cons, not_or] at hk'
        simp [List.cons_prefix_cons, Ne.symm hk'.1]

/-- What follows a value inside a serialised message: a comma, bracket or brace. -/
def Sep (t : Bytes) : Prop := ∃ c r, t = c :: r ∧ (c = ',' ∨ c = ']' ∨ c = '}')

theorem Sep.comma (t : Bytes) : Sep (',' :: t) := ⟨_, _, rfl, .inl rfl⟩
theorem Sep.bracket (t : Bytes) : Sep (']' :: t) := ⟨_, _, rfl, .inr (.inl rfl)⟩
theorem Sep.brace (t : Bytes) : Sep ('}' :: t) := ⟨_, _, rfl, .inr (.inr rfl)⟩

theorem Sep.notColon {t : Bytes} (h : Sep t) : t.head? ≠ some ':' := by
  obtain ⟨c, r, rfl, h⟩ := h
  rcases h with rfl | rfl | rfl <;> simp

theorem Sep.notAlpha {t : Bytes} (h : Sep t) : ∀ c ∈ t.head?, ¬ (97 ≤ c.toNat ∧ c.toNat ≤ 122) := by
  obtain ⟨c, r, rfl, h⟩ := h
  intro x hx; simp at hx; subst hx
  rcases h with rfl | rfl | rfl <;> decide

theorem Sep.numStop {t : Bytes} (h : Sep t) : NumStop t := by
  obtain ⟨c, r, rfl, h⟩ := h
  rcases h with rfl | rfl | rfl <;> exact numStop_of_cons (by decide) (by decide) (by decide) (by decide)

theorem afterKey_quoted {k : Bytes} (hk : AlphaKey k) {X t : Bytes} (hX : '"' ∉ X) (ht : Sep t) :
    afterKey k ('"' :: (X ++ '"' :: t)) = afterKey k t := by
  rw [afterKey_quote (noMatch_raw X k t hk.noQuote ht.notColon hX), afterKey_skips _ hX,
    afterKey_closing hk ht.notAlpha]

theorem afterKey_escStr {k : Bytes} (hk : AlphaKey k) {t : Bytes} (ht : Sep t) :
    ∀ s, afterKey k (escStr s ++ '"' :: t) = afterKey k t
  | [] => afterKey_closing hk ht.notAlpha
  | c :: s => by
    have ih := afterKey_escStr hk ht s
    rw [escStr]
    rcases escCh_shape c with ⟨h1, h2, h3⟩ | ⟨x, r, h3, h4⟩
    · rw [h3, List.cons_append, List.nil_append, List.cons_append, afterKey_skip h1, ih]
    · rw [h3]
      simp only [List.cons_append, List.append_assoc]
      rw [afterKey_skip (by decide)]
      by_cases hx : x = '"'
      · subst hx
        have hc : r = [] := by
          unfold escCh at h3
          split at h3
          · simpa using h3.symm
          repeat' split at h3
          all_goals simp at h3
        subst hc
        rw [List.nil_append, afterKey_quote (noMatch_esc s k t hk.noQuote hk.noSlash ht.notColon)]
        exact ih
      · rw [afterKey_skip hx, afterKey_skips _ (fun h => (h4 _ h).1 rfl), ih]

theorem afterKey_serStr {k : Bytes} (hk : AlphaKey k) {t : Bytes} (ht : Sep t) (s : Bytes) :
    afterKey k (serStr s ++ t) = afterKey k t := by
  simp only [serStr, List.cons_append, List.append_assoc, List.nil_append]
  rw [afterKey_quote (noMatch_esc s k t hk.noQuote hk.noSlash ht.notColon), afterKey_escStr hk ht]

theorem natDec_noQuote (n : Nat) : '"' ∉ natDec n := by
  intro h; have := natDec_isDig h; revert this; decide

theorem intDec_noQuote (i : Int) : '"' ∉ intDec i := by
  cases i with
  | ofNat n => exact natDec_noQuote n
  | negSucc n => simp [intDec, natDec_noQuote]

variable {D : Type} [DblFmt D]

theorem dbl_noQuote {d : D} (h : DblOK d) : '"' ∉ DblFmt.print d := by
  obtain ⟨⟨sg, ip, fp, hp, hsg, _, hip, hfp⟩, _⟩ := h
  have hd : ∀ ds : Bytes, (∀ c ∈ ds, isDig c = true) → '"' ∉ ds := fun ds h hm => by
    have := h _ hm; revert this; decide
  rw [hp]
  simp only [List.mem_append, List.mem_cons, not_or]
  refine ⟨⟨?_, hd _ hip⟩, by decide, hd _ hfp⟩
  rcases hsg with rfl | rfl <;> simp

mutual
/-- Does some object nested anywhere in the value have a member with this name? -/
def JVal.HasKey (k : Bytes) : JVal D → Prop
  | .arr l => HasKeyList k l
  | .obj m => HasKeyFields k m
  | _ => False
def HasKeyList (k : Bytes) : List (JVal D) → Prop
  | [] => False
  | v :: r => v.HasKey k ∨ HasKeyList k r
def HasKeyFields (k : Bytes) : List (Bytes × JVal D) → Prop
  | [] => False
  | (k', v) :: r => k' = k ∨ v.HasKey k ∨ HasKeyFields k r
end

theorem PlainText.noQuote {k : Bytes} (h : PlainText k) : '"' ∉ k := fun hm => (h _ hm).1 rfl

theorem not_alpha_colon : ∀ c ∈ (':' :: (t : Bytes)).head?, ¬ (97 ≤ c.toNat ∧ c.toNat ≤ 122) := by
  intro x hx; simp at hx; subst hx; decide

/-- A member name different from the searched key is passed over. -/
theorem afterKey_member {k : Bytes} (hk : AlphaKey k) {k' t : Bytes} (hp : PlainText k') (hne : k' ≠ k) :
    afterKey k ('"' :: (k' ++ '"' :: ':' :: t)) = afterKey k t := by
  rw [afterKey_quote (noMatch_key k' k _ hk.noQuote hne hp.noQuote), afterKey_skips _ hp.noQuote,
    afterKey_closing hk not_alpha_colon, afterKey_skip (by decide)]

mutual
theorem ak_value {k : Bytes} (hk : AlphaKey k) (v : JVal D) (hv : v.Wire) (hn : ¬ v.HasKey k) (t : Bytes) (ht : Sep t) :
    afterKey k (ser v ++ t) = afterKey k t := by
  match v, hv, hn with
  | .null, _, _ => simp only [ser]; exact afterKey_skips t (by decide)
  | .bool true, _, _ => simp only [ser]; exact afterKey_skips t (by decide)
  | .bool false, _, _ => simp only [ser]; exact afterKey_skips t (by decide)
  | .int i, _, _ => exact afterKey_skips t (by simpa [ser] using intDec_noQuote i)
  | .dbl d, hv, _ => exact afterKey_skips t (by simpa [ser] using dbl_noQuote (by simpa [JVal.Wire] using hv))
  | .str s, _, _ => simp only [ser]; exact afterKey_serStr hk ht s
  | .arr l, hv, hn =>
    have h := ak_list hk l (by simpa [JVal.Wire] using hv) (by simpa [JVal.HasKey] using hn) t
    simp only [ser, List.cons_append, List.append_assoc, List.nil_append]
    rw [afterKey_skip (by decide), h]
  | .obj m, hv, hn =>
    have hv' : WireFields m ∧ (m.map Prod.fst).Nodup := by simpa only [JVal.Wire] using hv
    have h := ak_fields hk m hv'.1 (by simpa [JVal.HasKey] using hn) t
    simp only [ser, List.cons_append, List.append_assoc, List.nil_append]
    rw [afterKey_skip (by decide), h]
theorem ak_list {k : Bytes} (hk : AlphaKey k) (l : List (JVal D)) (hl : WireList l) (hn : ¬ HasKeyList k l) (t : Bytes) :
    afterKey k (serList l ++ ']' :: t) = afterKey k t := by
  match l, hl, hn with
  | [], _, _ => simp only [serList, List.nil_append]; exact afterKey_skip (by decide)
  | [v], hl, hn =>
    simp only [WireList] at hl
    simp only [HasKeyList, not_or] at hn
    simp only [serList]
    rw [ak_value hk v hl.1 hn.1 _ (.bracket t), afterKey_skip (by decide)]
  | v :: w :: r, hl, hn =>
    rw [WireList] at hl
    rw [HasKeyList, not_or] at hn
    simp only [serList, List.append_assoc, List.cons_append]
    rw [ak_value hk v hl.1 hn.1 _ (.comma _), afterKey_skip (by decide), ak_list hk (w :: r) hl.2 hn.2]
theorem ak_fields {k : Bytes} (hk : AlphaKey k) (l : List (Bytes × JVal D)) (hl : WireFields l)
    (hn : ¬ HasKeyFields k l) (t : Bytes) : afterKey k (serFields l ++ '}' :: t) = afterKey k t := by
  match l, hl, hn with
  | [], _, _ => simp only [serFields, List.nil_append]; exact afterKey_skip (by decide)
  | [(k', v)], hl, hn =>
    simp only [WireFields] at hl
    simp only [HasKeyFields, not_or] at hn
    simp only [serFields, List.append_assoc, List.cons_append]
    rw [afterKey_member hk hl.1 hn.1, ak_value hk v hl.2.1 hn.2.1 _ (.brace t), afterKey_skip (by decide)]
  | (k', v) :: w :: r, hl, hn =>
    rw [WireFields] at hl
    rw [HasKeyFields, not_or, not_or] at hn
    simp only [serFields, List.append_assoc, List.cons_append]
    rw [afterKey_member hk hl.1 hn.1, ak_value hk v hl.2.1 hn.2.1 _ (.comma _), afterKey_skip (by decide),
      ak_fields hk (w :: r) hl.2.2 hn.2.2]
end

mutual
/-- Conversely, if some nested object has the member, the textual search finds an occurrence. -/
theorem ak_found_value {k : Bytes} (hk : AlphaKey k) (v : JVal D) (hv : v.Wire) (hn : v.HasKey k) (t : Bytes) :
    ∃ u, afterKey k (ser v ++ t) = some u ∧ ∃ w r, JVal.Wire (D := D) w ∧ u = ser w ++ r ∧ Sep r := by
  match v, hv, hn with
  | .null, _, hn => simp [JVal.HasKey] at hn
  | .bool _, _, hn => simp [JVal.HasKey] at hn
  | .int _, _, hn => simp [JVal.HasKey] at hn
  | .dbl _, _, hn => simp [JVal.HasKey] at hn
  | .str _, _, hn => simp [JVal.HasKey] at hn
  | .arr l, hv, hn =>
    have h := ak_found_list hk l (by simpa [JVal.Wire] using hv) (by simpa [JVal.HasKey] using hn) t
    simp only [ser, List.cons_append, List.append_assoc, List.nil_append]
    rw [afterKey_skip (by decide)]; exact h
  | .obj m, hv, hn =>
    have hv' : WireFields m ∧ (m.map Prod.fst).Nodup := by simpa only [JVal.Wire] using hv
    have h := ak_found_fields hk m hv'.1 (by simpa [JVal.HasKey] using hn) t
    simp only [ser, List.cons_append, List.append_assoc, List.nil_append]
    rw [afterKey_skip (by decide)]; exact h
theorem ak_found_list {k : Bytes} (hk : AlphaKey k) (l : List (JVal D)) (hl : WireList l) (hn : HasKeyList k l) (t : Bytes) :
    ∃ u, afterKey k (serList l ++ ']' :: t) = some u ∧ ∃ w r, JVal.Wire (D := D) w ∧ u = ser w ++ r ∧ Sep r := by
  match l, hl, hn with
  | [], _, hn => simp [HasKeyList] at hn
  | [v], hl, hn =>
    simp only [WireList] at hl
    simp only [HasKeyList, or_false] at hn
    simp only [serList]
    exact ak_found_value hk v hl.1 hn _
  | v :: w :: r, hl, hn =>
    rw [WireList] at hl
    rw [HasKeyList] at hn
    simp only [serList, List.append_assoc, List.cons_append]
    by_cases h : v.HasKey k
    · exact ak_found_value hk v hl.1 h _
    · rw [ak_value hk v hl.1 h _ (.comma _), afterKey_skip (by decide)]
      exact ak_found_list hk (w :: r) hl.2 (hn.resolve_left h) t
theorem ak_found_fields {k : Bytes} (hk : AlphaKey k) (l : List (Bytes × JVal D)) (hl : WireFields l)
    (hn : HasKeyFields k l) (t : Bytes) :
    ∃ u, afterKey k (serFields l ++ '}' :: t) = some u ∧ ∃ w r, JVal.Wire (D := D) w ∧ u = ser w ++ r ∧ Sep r := by
  match l, hl, hn with
  | [], _, hn => simp [HasKeyFields] at hn
  | [(k', v)], hl, hn =>
    simp only [WireFields] at hl
    simp only [HasKeyFields, or_false] at hn
    simp only [serFields, List.append_assoc, List.cons_append]
    by_cases h : k' = k
    · subst h; exact ⟨_, afterKey_hit _ _, v, _, hl.2.1, rfl, .brace t⟩
    · rw [afterKey_member hk hl.1 h]
      exact ak_found_value hk v hl.2.1 (hn.resolve_left h) _
  | (k', v) :: w :: r, hl, hn =>
    rw [WireFields] at hl
    rw [HasKeyFields] at hn
    simp only [serFields, List.append_assoc, List.cons_append]
    by_cases h : k' = k
    · subst h; exact ⟨_, afterKey_hit _ _, v, _, hl.2.1, rfl, .comma _⟩
    · rw [afterKey_member hk hl.1 h]
      by_cases h2 : v.HasKey k
      · exact ak_found_value hk v hl.2.1 h2 _
      · rw [ak_value hk v hl.2.1 h2 _ (.comma _), afterKey_skip (by decide)]
        exact ak_found_fields hk (w :: r) hl.2.2 ((hn.resolve_left h).resolve_left h2) t
end

/-! ### Scanning for top-level keys -/

theorem scanStr_plain (X t : Bytes) (h : PlainText X) : scanStr (X ++ '"' :: t) = (X, t) := by
  induction X with
  | nil => rw [List.nil_append, scanStr.eq_def]; simp
  | cons c X ih =>
    have hc := h c (by simp)
    rw [List.cons_append, scanStr.eq_def]
    simp only [hc.1, hc.2, if_false]
    rw [ih (fun x hx => h x (by simp [hx]))]

theorem scanStr_tail {r : Bytes} (h : ∀ y ∈ r, y ≠ '"' ∧ y ≠ '\\') (t : Bytes) :
    scanStr (r ++ t) = (r ++ (scanStr t).1, (scanStr t).2) := by
  induction r with
  | nil => rfl
  | cons c r ih =>
    have hc := h c (by simp)
    rw [List.cons_append, scanStr.eq_def]
    simp only [hc.1, hc.2, if_false]
    rw [ih (fun x hx => h x (by simp [hx]))]
    rfl

theorem scanStr_esc (s t : Bytes) : (scanStr (escStr s ++ '"' :: t)).2 = t := by
  induction s with
  | nil => rw [escStr, List.nil_append, scanStr.eq_def]; simp
  | cons c s ih =>
    rw [escStr]
    rcases escCh_shape c with ⟨h1, h2, h3⟩ | ⟨x, r, h3, h4⟩
    · rw [h3, List.cons_append, List.nil_append, List.cons_append, scanStr.eq_def]
      simp only [h1, h2, if_false]
      exact ih
    · rw [h3]
      simp only [List.cons_append, List.append_assoc]
      rw [scanStr.eq_def]
      simp only [if_true]
      rw [scanStr_tail h4]
      exact ih

theorem afterColon_sep {t : Bytes} (h : Sep t) : afterColon t = (false, t) := by
  obtain ⟨c, r, rfl, h⟩ := h
  rcases h with rfl | rfl | rfl <;>
  · rw [afterColon, skipWs_cons (by decide)]
    rfl

theorem afterColon_colon (t : Bytes) : afterColon (':' :: t) = (true, t) := by
  rw [afterColon, skipWs_cons (by decide)]; rfl

theorem scanTop_skip {key : Bytes} {d : Nat} {c : Char} {t : Bytes} (h1 : c ≠ '"') (h2 : c ≠ '{') (h3 : c ≠ '}') :
    scanTop key d (c :: t) = scanTop key d t := by
  rw [scanTop.eq_def]; simp only [h1, h2, h3, if_false]

theorem scanTop_skips {key : Bytes} {d : Nat} : ∀ {q : Bytes} (t : Bytes), (∀ c ∈ q, c ≠ '"' ∧ c ≠ '{' ∧ c ≠ '}') →
    scanTop key d (q ++ t) = scanTop key d t
  | [], _, _ => rfl
  | c :: q, t, h => by
    have hc := h c (by simp)
    rw [List.cons_append, scanTop_skip hc.1 hc.2.1 hc.2.2, scanTop_skips t (fun x hx => h x (by simp [hx]))]

theorem scanTop_open (key : Bytes) (d : Nat) (t : Bytes) : scanTop key d ('{' :: t) = scanTop key (d + 1) t := by
  rw [scanTop.eq_def]; simp

theorem scanTop_close (key : Bytes) (d : Nat) (t : Bytes) : scanTop key (d + 2) ('}' :: t) = scanTop key (d + 1) t := by
  rw [scanTop.eq_def]; simp

theorem scanTop_end (key : Bytes) (t : Bytes) : scanTop key 1 ('}' :: t) = false := by
  rw [scanTop.eq_def]; simp

theorem scanTop_value_str (key : Bytes) (d : Nat) (X t : Bytes) (h : (scanStr X).2 = t) (ht : Sep t) :
    scanTop key d ('"' :: X) = scanTop key d t := by
  rw [scanTop.eq_def]; simp only [if_true, h, afterColon_sep ht]; simp

theorem scanTop_member_ne (key : Bytes) (d : Nat) (k t : Bytes) (hk : PlainText k) (h : d ≠ 1 ∨ k ≠ key) :
    scanTop key d ('"' :: (k ++ '"' :: ':' :: t)) = scanTop key d t := by
  rw [scanTop.eq_def]
  simp only [if_true, scanStr_plain k _ hk, afterColon_colon]
  rw [if_neg]
  rintro ⟨_, h1, h2⟩
  rcases h with h | h
  · exact h h1
  · exact h h2

theorem scanTop_member_eq (k t : Bytes) (hk : PlainText k) : scanTop k 1 ('"' :: (k ++ '"' :: ':' :: t)) = true := by
  rw [scanTop.eq_def]
  simp only [if_true, scanStr_plain k _ hk, afterColon_colon]
  simp

theorem numChar_ok {c : Char} (h : isDig c = true ∨ c = '-' ∨ c = '.') : c ≠ '"' ∧ c ≠ '{' ∧ c ≠ '}' := by
  rcases h with h | rfl | rfl
  · refine ⟨?_, ?_, ?_⟩ <;> (rintro rfl; revert h; decide)
  · decide
  · decide

theorem intDec_chars {i : Int} {c : Char} (h : c ∈ intDec i) : isDig c = true ∨ c = '-' ∨ c = '.' := by
  cases i with
  | ofNat n => exact .inl (natDec_isDig (n := n) h)
  | negSucc n =>
    simp only [intDec, List.mem_cons] at h
    rcases h with h | h
    · exact .inr (.inl h)
    · exact .inl (natDec_isDig h)

theorem dbl_chars {d : D} (hd : DblOK d) {c : Char} (h : c ∈ DblFmt.print d) : isDig c = true ∨ c = '-' ∨ c = '.' := by
  obtain ⟨⟨sg, ip, fp, hp, hsg, _, hip, hfp⟩, _⟩ := hd
  rw [hp] at h
  simp only [List.mem_append, List.mem_cons] at h
  rcases h with (h | h) | h | h
  · rcases hsg with rfl | rfl <;> simp at h; exact .inr (.inl h)
  · exact .inl (hip _ h)
  · exact .inr (.inr h)
  · exact .inl (hfp _ h)

mutual
theorem sc_value (key : Bytes) (d : Nat) (v : JVal D) (hv : v.Wire) (t : Bytes) (ht : Sep t) :
    scanTop key (d + 1) (ser v ++ t) = scanTop key (d + 1) t := by
  match v, hv with
  | .null, _ => simp only [ser]; exact scanTop_skips t (by decide)
  | .bool true, _ => simp only [ser]; exact scanTop_skips t (by decide)
  | .bool false, _ => simp only [ser]; exact scanTop_skips t (by decide)
  | .int i, _ => exact scanTop_skips t (fun c hc => numChar_ok (intDec_chars (i := i) (by simpa [ser] using hc)))
  | .dbl x, hv => exact scanTop_skips t (fun c hc => numChar_ok (dbl_chars (by simpa [JVal.Wire] using hv) (by simpa [ser] using hc)))
  | .str s, _ =>
    simp only [ser, serStr, List.cons_append, List.append_assoc, List.nil_append]
    exact scanTop_value_str key _ _ t (scanStr_esc s t) ht
  | .arr l, hv =>
    simp only [ser, List.cons_append, List.append_assoc, List.nil_append]
    rw [scanTop_skip (by decide) (by decide) (by decide), sc_list key d l (by simpa [JVal.Wire] using hv)]
  | .obj m, hv =>
    have hv' : WireFields m ∧ (m.map Prod.fst).Nodup := by simpa only [JVal.Wire] using hv
    simp only [ser, List.cons_append, List.append_assoc, List.nil_append]
    rw [scanTop_open, sc_fields key d m hv'.1]
theorem sc_list (key : Bytes) (d : Nat) (l : List (JVal D)) (hl : WireList l) (t : Bytes) :
    scanTop key (d + 1) (serList l ++ ']' :: t) = scanTop key (d + 1) t := by
  match l, hl with
  | [], _ => simp only [serList, List.nil_append]; exact scanTop_skip (by decide) (by decide) (by decide)
  | [v], hl =>
    simp only [WireList] at hl
    simp only [serList]
    rw [sc_value key d v hl.1 _ (.bracket t), scanTop_skip (by decide) (by decide) (by decide)]
  | v :: w :: r, hl =>
    rw [WireList] at hl
    simp only [serList, List.append_assoc, List.cons_append]
    rw [sc_value key d v hl.1 _ (.comma _), scanTop_skip (by decide) (by decide) (by decide), sc_list key d (w :: r) hl.2]
theorem sc_fields (key : Bytes) (d : Nat) (l : List (Bytes × JVal D)) (hl : WireFields l) (t : Bytes) :
    scanTop key (d + 2) (serFields l ++ '}' :: t) = scanTop key (d + 1) t := by
  match l, hl with
  | [], _ => simp only [serFields, List.nil_append]; exact scanTop_close key d t
  | [(k', v)], hl =>
    simp only [WireFields] at hl
    simp only [serFields, List.append_assoc, List.cons_append]
    rw [scanTop_member_ne key _ k' _ hl.1 (.inl (by omega)), sc_value key (d + 1) v hl.2.1 _ (.brace t), scanTop_close]
  | (k', v) :: w :: r, hl =>
    rw [WireFields] at hl
    simp only [serFields, List.append_assoc, List.cons_append]
    rw [scanTop_member_ne key _ k' _ hl.1 (.inl (by omega)), sc_value key (d + 1) v hl.2.1 _ (.comma _),
      scanTop_skip (by decide) (by decide) (by decide), sc_fields key d (w :: r) hl.2.2]
end

end Verif
