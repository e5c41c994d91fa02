import Verif.Json.Lemmas

/-! Round trip and totality lemmas for the JSON parser. -/

namespace Verif

variable {D : Type} [DblFmt D]

/-- Text that may appear raw between quotes. -/
def PlainText (k : Bytes) : Prop := ∀ c ∈ k, c ≠ '"' ∧ c ≠ '\\'

mutual
/-- Values the wire format can carry: 64-bit integers, doubles that six decimals represent, objects whose
member names are distinct (they come from a map) and contain no quote or backslash. -/
def JVal.Wire : JVal D → Prop
  | .null => True
  | .bool _ => True
  | .int i => Int64OK i
  | .dbl d => DblOK d
  | .str _ => True
  | .arr l => WireList l
  | .obj m => WireFields m ∧ (m.map Prod.fst).Nodup
def WireList : List (JVal D) → Prop
  | [] => True
  | v :: r => v.Wire ∧ WireList r
def WireFields : List (Bytes × JVal D) → Prop
  | [] => True
  | (k, v) :: r => PlainText k ∧ v.Wire ∧ WireFields r
end

/-- First character of a number: digit or minus. -/
def NumHead (c : Char) : Prop := isDig c = true ∨ c = '-'

theorem NumHead.facts {c : Char} (h : NumHead c) :
    isWs c = false ∧ c ≠ ']' ∧ c ≠ '}' ∧ c ≠ '"' ∧ c ≠ '{' ∧ c ≠ '[' ∧ c ≠ 't' ∧ c ≠ 'f' ∧ c ≠ 'n' := by
  rcases h with h | rfl
  · refine ⟨?_, ?_, ?_, ?_, ?_, ?_, ?_, ?_, ?_⟩
    · cases hw : isWs c with
      | false => rfl
      | true =>
        simp only [isWs, Bool.or_eq_true, decide_eq_true_eq] at hw
        rcases hw with ((rfl | rfl) | rfl) | rfl <;> revert h <;> decide
    all_goals rintro rfl; revert h; decide
  · decide

theorem intDec_head (i : Int) : ∃ c cs, intDec i = c :: cs ∧ NumHead c := by
  cases i with
  | ofNat n =>
    cases hn : natDec n with
    | nil => exact absurd hn (natDec_ne_nil n)
    | cons c cs => exact ⟨c, cs, hn, Or.inl (natDec_isDig (n := n) (by simp [hn]))⟩
  | negSucc n => exact ⟨'-', _, rfl, Or.inr rfl⟩

theorem dbl_head {d : D} (h : DblOK d) : ∃ c cs, DblFmt.print d = c :: cs ∧ NumHead c := by
  obtain ⟨⟨sg, ip, fp, hp, hsg, hip, hip', _⟩, _⟩ := h
  rw [hp]
  rcases hsg with rfl | rfl
  · cases ip with
    | nil => exact absurd rfl hip
    | cons c cs => exact ⟨c, _, rfl, Or.inl (hip' c (by simp))⟩
  · exact ⟨'-', _, rfl, Or.inr rfl⟩

theorem ser_head (v : JVal D) (h : v.Wire) :
    ∃ c cs, ser v = c :: cs ∧ isWs c = false ∧ c ≠ ']' ∧ c ≠ '}' := by
  cases v with
  | null => exact ⟨'n', _, rfl, by decide⟩
  | bool b => cases b <;> exact ⟨_, _, rfl, by decide⟩
  | int i =>
    obtain ⟨c, cs, h1, h2⟩ := intDec_head i
    exact ⟨c, cs, by rw [ser, h1], h2.facts.1, h2.facts.2.1, h2.facts.2.2.1⟩
  | dbl d =>
    simp only [JVal.Wire] at h
    obtain ⟨c, cs, h1, h2⟩ := dbl_head h
    exact ⟨c, cs, by rw [ser, h1], h2.facts.1, h2.facts.2.1, h2.facts.2.2.1⟩
  | str s => exact ⟨'"', escStr s ++ ['"'], by simp [ser, serStr], by decide⟩
  | arr l => exact ⟨'[', serList l ++ [']'], by simp [ser], by decide⟩
  | obj m => exact ⟨'{', serFields m ++ ['}'], by simp [ser], by decide⟩

theorem parseScalar_num {c : Char} {cs : Bytes} (h : NumHead c) :
    parseScalar (D := D) (c :: cs) = parseNumber (c :: cs) := by
  have hf := h.facts
  unfold parseScalar
  rw [if_neg, if_neg, if_neg]
  · simp only [lit]; intro hp
    rw [List.isPrefixOf_iff_prefix] at hp
    simp only [String.reduceToList, List.cons_prefix_cons] at hp
    exact hf.2.2.2.2.2.2.2.2 hp.1.symm
  · simp only [lit]; intro hp
    rw [List.isPrefixOf_iff_prefix] at hp
    simp only [String.reduceToList, List.cons_prefix_cons] at hp
    exact hf.2.2.2.2.2.2.2.1 hp.1.symm
  · simp only [lit]; intro hp
    rw [List.isPrefixOf_iff_prefix] at hp
    simp only [String.reduceToList, List.cons_prefix_cons] at hp
    exact hf.2.2.2.2.2.2.1 hp.1.symm

theorem parseValue_num {c : Char} {cs : Bytes} (h : NumHead c) (n : Nat) :
    parseValue (D := D) (n + 1) (c :: cs) = .ok (parseNumber (D := D) (c :: cs)).1 (parseNumber (D := D) (c :: cs)).2 := by
  have hf := h.facts
  rw [parseValue.eq_def]
  simp only [skipWs_cons hf.1]
  rw [if_neg hf.2.2.2.1, if_neg hf.2.2.2.2.1, if_neg hf.2.2.2.2.2.1, parseScalar_num h]

theorem parseValue_scalar {c : Char} {cs : Bytes} (h : isWs c = false) (h1 : c ≠ '"') (h2 : c ≠ '{') (h3 : c ≠ '[')
    (n : Nat) :
    parseValue (D := D) (n + 1) (c :: cs) = .ok (parseScalar (D := D) (c :: cs)).1 (parseScalar (D := D) (c :: cs)).2 := by
  rw [parseValue.eq_def]
  simp only [skipWs_cons h]
  rw [if_neg h1, if_neg h2, if_neg h3]

theorem numStop_of_cons {c : Char} {cs : Bytes} (h1 : isDig c = false) (h2 : c ≠ '.') (h3 : c ≠ 'e') (h4 : c ≠ 'E') :
    NumStop (c :: cs) := by
  intro x hx; simp at hx; subst hx; exact ⟨h1, h2, h3, h4⟩

theorem putKey_new {α : Type} (k : Bytes) (v : α) (acc : List (Bytes × α)) (h : k ∉ acc.map Prod.fst) :
    putKey k v acc = acc ++ [(k, v)] := by
  induction acc with
  | nil => rfl
  | cons p r ih =>
    obtain ⟨k', v'⟩ := p
    simp only [List.map_cons, List.mem_cons, not_or] at h
    simp [putKey, Ne.symm h.1, ih h.2]

mutual
theorem rt_value (v : JVal D) (hv : v.Wire) (n : Nat) (hn : 2 * (ser v).length + 1 ≤ n) (rest : Bytes)
    (hr : NumStop rest) : parseValue n (ser v ++ rest) = .ok v rest := by
  obtain ⟨m, rfl⟩ : ∃ m, n = m + 1 := ⟨n - 1, by omega⟩
  match v, hv, hn with
  | .null, _, _ =>
    simp only [ser, lit, String.reduceToList, List.cons_append, List.nil_append]
    rw [parseValue_scalar (by decide) (by decide) (by decide) (by decide)]
    simp [parseScalar, lit, List.isPrefixOf]
  | .bool true, _, _ =>
    simp only [ser, lit, String.reduceToList, List.cons_append, List.nil_append]
    rw [parseValue_scalar (by decide) (by decide) (by decide) (by decide)]
    simp [parseScalar, lit, List.isPrefixOf]
  | .bool false, _, _ =>
    simp only [ser, lit, String.reduceToList, List.cons_append, List.nil_append]
    rw [parseValue_scalar (by decide) (by decide) (by decide) (by decide)]
    simp [parseScalar, lit, List.isPrefixOf]
  | .int i, hv, _ =>
    have hp := parseNumber_int (D := D) i (by simpa [JVal.Wire] using hv) rest hr
    obtain ⟨c, cs, h1, h2⟩ := intDec_head i
    simp only [ser]
    rw [h1] at hp ⊢
    rw [List.cons_append] at hp ⊢
    rw [parseValue_num h2, hp]
  | .dbl d, hv, _ =>
    have hd : DblOK d := by simpa [JVal.Wire] using hv
    have hp := parseNumber_dbl (D := D) d hd rest hr
    obtain ⟨c, cs, h1, h2⟩ := dbl_head hd
    simp only [ser]
    rw [h1] at hp ⊢
    rw [List.cons_append] at hp ⊢
    rw [parseValue_num h2, hp]
  | .str s, _, _ =>
    simp only [ser, serStr, List.cons_append, List.append_assoc, List.nil_append]
    rw [parseValue.eq_def]
    simp only [skipWs_cons (show isWs '"' = false by decide), if_true]
    rw [strBody_escStr]
    rfl
  | .arr [], _, _ =>
    simp only [ser, serList, List.cons_append, List.nil_append]
    rw [parseValue.eq_def]
    simp only [skipWs_cons (show isWs '[' = false by decide), skipWs_cons (show isWs ']' = false by decide)]
    simp
  | .arr (w :: l), hv, hn =>
    have hw : w.Wire := by simp only [JVal.Wire, WireList] at hv; exact hv.1
    have hl := rt_list (w :: l) (by simpa [JVal.Wire] using hv) (by simp) m
      (by simp only [ser, List.length_cons, List.length_append] at hn; simp at hn; omega) rest
    obtain ⟨c, cs, h1, h2, h3, h4⟩ := ser_head w hw
    have h5 : ∃ cs', serList (w :: l) ++ ']' :: rest = c :: cs' := by
      cases l with
      | nil => exact ⟨cs ++ ']' :: rest, by simp [serList, h1]⟩
      | cons a b => exact ⟨cs ++ ',' :: (serList (a :: b) ++ ']' :: rest), by simp [serList, h1]⟩
    obtain ⟨cs', h5⟩ := h5
    simp only [ser, List.cons_append, List.append_assoc, List.nil_append]
    rw [parseValue.eq_def]
    simp only [skipWs_cons (show isWs '[' = false by decide)]
    rw [if_neg (by decide), if_neg (by decide), if_pos trivial]
    rw [h5] at hl ⊢
    rw [skipWs_cons h2]
    split
    · next heq => simp at heq; exact absurd heq.1 h3
    · rw [hl]; rfl
  | .obj [], _, _ =>
    simp only [ser, serFields, List.cons_append, List.nil_append]
    rw [parseValue.eq_def]
    simp only [skipWs_cons (show isWs '{' = false by decide), skipWs_cons (show isWs '}' = false by decide)]
    simp
  | .obj ((k, w) :: l), hv, hn =>
    have hv' : WireFields ((k, w) :: l) ∧ (((k, w) :: l).map Prod.fst).Nodup := by simpa only [JVal.Wire] using hv
    have hl := rt_fields ((k, w) :: l) hv'.1 (by simp) hv'.2 m
      (by simp only [ser, List.length_cons, List.length_append] at hn; simp at hn; omega) [] (by simp) rest
    have h5 : ∃ cs', serFields ((k, w) :: l) ++ '}' :: rest = '"' :: cs' := by
      cases l with
      | nil => exact ⟨_, by simp [serFields]; rfl⟩
      | cons a b => exact ⟨_, by simp [serFields]; rfl⟩
    obtain ⟨cs', h5⟩ := h5
    simp only [ser, List.cons_append, List.append_assoc, List.nil_append]
    rw [parseValue.eq_def]
    simp only [skipWs_cons (show isWs '{' = false by decide)]
    rw [if_neg (by decide), if_pos trivial]
    rw [h5] at hl ⊢
    rw [skipWs_cons (by decide)]
    split
    · next heq => simp at heq
    · rw [hl]; rfl
theorem rt_list (l : List (JVal D)) (hl : WireList l) (hne : l ≠ []) (n : Nat)
    (hn : 2 * (serList l).length + 2 ≤ n) (rest : Bytes) :
    arrLoop n (serList l ++ ']' :: rest) = .ok l rest := by
  obtain ⟨m, rfl⟩ : ∃ m, n = m + 1 := ⟨n - 1, by omega⟩
  match l, hl, hne, hn with
  | [v], hl, _, hn =>
    have hv := rt_value v (by simpa [WireList] using hl) m (by simp only [serList] at hn; omega) (']' :: rest)
      (numStop_of_cons (by decide) (by decide) (by decide) (by decide))
    rw [arrLoop.eq_def]
    simp only [serList, hv, skipWs_cons (show isWs ']' = false by decide)]
  | v :: w :: r, hl, _, hn =>
    have hl' : v.Wire ∧ WireList (w :: r) := by rw [WireList] at hl; exact hl
    simp only [serList, List.length_append, List.length_cons] at hn
    have hv := rt_value v hl'.1 m (by omega) (',' :: (serList (w :: r) ++ ']' :: rest))
      (numStop_of_cons (by decide) (by decide) (by decide) (by decide))
    have ht := rt_list (w :: r) hl'.2 (by simp) m (by omega) rest
    rw [arrLoop.eq_def]
    have he : serList (v :: w :: r) ++ ']' :: rest = ser v ++ ',' :: (serList (w :: r) ++ ']' :: rest) := by
      simp [serList]
    rw [he]
    simp only [hv, skipWs_cons (show isWs ',' = false by decide), ht]
    rfl
theorem rt_fields (l : List (Bytes × JVal D)) (hl : WireFields l) (hne : l ≠ []) (hnd : (l.map Prod.fst).Nodup)
    (n : Nat) (hn : 2 * (serFields l).length + 2 ≤ n) (acc : List (Bytes × JVal D))
    (hacc : ∀ k ∈ l.map Prod.fst, k ∉ acc.map Prod.fst) (rest : Bytes) :
    objLoop n acc (serFields l ++ '}' :: rest) = .ok (.obj (acc ++ l)) rest := by
  obtain ⟨m, rfl⟩ : ∃ m, n = m + 1 := ⟨n - 1, by omega⟩
  match l, hl, hne, hnd, hn, hacc with
  | [(k, v)], hl, _, _, hn, hacc =>
    have hl' : PlainText k ∧ v.Wire := by rw [WireFields] at hl; exact ⟨hl.1, hl.2.1⟩
    simp only [serFields, List.length_append, List.length_cons] at hn
    have hv := rt_value v hl'.2 m (by omega) ('}' :: rest)
      (numStop_of_cons (by decide) (by decide) (by decide) (by decide))
    have he : serFields [(k, v)] ++ '}' :: rest = '"' :: (k ++ '"' :: (':' :: (ser v ++ '}' :: rest))) := by
      simp [serFields]
    have hk : parseString (serFields [(k, v)] ++ '}' :: rest) = .ok k (':' :: (ser v ++ '}' :: rest)) := by
      rw [he, parseString, skipWs_cons (by decide)]
      exact strBody_plain k _ hl'.1
    rw [objLoop.eq_def]
    simp only [hk, skipWs_cons (show isWs ':' = false by decide), hv, skipWs_cons (show isWs '}' = false by decide)]
    rw [putKey_new k v acc (hacc k (by simp))]
  | (k, v) :: w :: r, hl, _, hnd, hn, hacc =>
    have hl' : PlainText k ∧ v.Wire ∧ WireFields (w :: r) := by rw [WireFields] at hl; exact hl
    simp only [serFields, List.length_append, List.length_cons] at hn
    have hv := rt_value v hl'.2.1 m (by omega) (',' :: (serFields (w :: r) ++ '}' :: rest))
      (numStop_of_cons (by decide) (by decide) (by decide) (by decide))
    have hnd' : k ∉ (w :: r).map Prod.fst ∧ ((w :: r).map Prod.fst).Nodup := by
      rw [List.map_cons, List.nodup_cons] at hnd; exact hnd
    have ht := rt_fields (w :: r) hl'.2.2 (by simp) hnd'.2 m (by omega) (acc ++ [(k, v)]) (by
        intro k' hk'
        simp only [List.map_append, List.map_cons, List.map_nil, List.mem_append, List.mem_singleton, not_or]
        refine ⟨hacc k' (by rw [List.map_cons]; exact List.mem_cons_of_mem _ hk'), ?_⟩
        rintro rfl; exact hnd'.1 hk') rest
    have he : serFields ((k, v) :: w :: r) ++ '}' :: rest
        = '"' :: (k ++ '"' :: (':' :: (ser v ++ ',' :: (serFields (w :: r) ++ '}' :: rest)))) := by
      simp [serFields]
    have hk : parseString (serFields ((k, v) :: w :: r) ++ '}' :: rest)
        = .ok k (':' :: (ser v ++ ',' :: (serFields (w :: r) ++ '}' :: rest))) := by
      rw [he, parseString, skipWs_cons (by decide)]
      exact strBody_plain k _ hl'.1
    rw [objLoop.eq_def]
    simp only [hk, skipWs_cons (show isWs ':' = false by decide), hv, skipWs_cons (show isWs ',' = false by decide)]
    rw [putKey_new k v acc (hacc k (by simp)), ht]
    simp
end

end Verif
