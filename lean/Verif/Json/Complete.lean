import Verif.Json.Spec
import Verif.Json.Total

/-! The parser reads every JSON text as the value it denotes. -/

namespace Verif

theorem utf8_eq (ch : Char) (h : ch.toNat < 65536) : utf8 ch.toNat = utf8Bytes ch := by
  have e : ch.val.toNat = ch.toNat := rfl
  unfold utf8 utf8Bytes String.utf8EncodeChar
  simp only [e]
  split
  · next h1 =>
    simp only [List.map_cons, List.map_nil, UInt8.toNat_ofNat', List.cons.injEq, and_true]
    congr 1; omega
  split
  · next h1 h2 =>
    simp only [List.map_cons, List.map_nil, UInt8.toNat_ofNat', List.cons.injEq, and_true]
    refine ⟨?_, ?_⟩ <;> congr 1 <;> omega
  · next h1 h2 =>
    rw [if_pos (by omega)]
    simp only [List.map_cons, List.map_nil, UInt8.toNat_ofNat', List.cons.injEq, and_true]
    refine ⟨?_, ?_, ?_⟩ <;> congr 1 <;> omega

theorem hexVal_of {c : Char} {n : Nat} (h : HexDig c n) : hexVal c = some n ∧ n < 16 := by
  cases h with
  | dig n h =>
    have : ∀ m : Fin 10, hexVal (Char.ofNat (48 + m.val)) = some m.val ∧ m.val < 16 := by decide
    exact this ⟨n, h⟩
  | low n h =>
    have : ∀ m : Fin 6, hexVal (Char.ofNat (97 + m.val)) = some (10 + m.val) ∧ 10 + m.val < 16 := by decide
    exact this ⟨n, h⟩
  | up n h =>
    have : ∀ m : Fin 6, hexVal (Char.ofNat (65 + m.val)) = some (10 + m.val) ∧ 10 + m.val < 16 := by decide
    exact this ⟨n, h⟩

theorem strBody_text {v t : Bytes} (h : StrText v t) (rest : Bytes) : strBody (t ++ '"' :: rest) = .ok v rest := by
  induction h with
  | nil => exact strBody_quote rest
  | raw c h1 h2 _ ih => rw [List.cons_append, strBody_other h1 h2, ih]; rfl
  | quote _ ih => rw [List.cons_append, List.cons_append, strBody_esc (ch := '"') (by decide) (by decide), ih]; rfl
  | backslash _ ih => rw [List.cons_append, List.cons_append, strBody_esc (ch := '\\') (by decide) (by decide), ih]; rfl
  | slash _ ih => rw [List.cons_append, List.cons_append, strBody_esc (ch := '/') (by decide) (by decide), ih]; rfl
  | b _ ih => rw [List.cons_append, List.cons_append, strBody_esc (ch := Char.ofNat 8) (by decide) (by decide), ih]; rfl
  | f _ ih => rw [List.cons_append, List.cons_append, strBody_esc (ch := Char.ofNat 12) (by decide) (by decide), ih]; rfl
  | n _ ih => rw [List.cons_append, List.cons_append, strBody_esc (ch := Char.ofNat 10) (by decide) (by decide), ih]; rfl
  | r _ ih => rw [List.cons_append, List.cons_append, strBody_esc (ch := Char.ofNat 13) (by decide) (by decide), ih]; rfl
  | t _ ih => rw [List.cons_append, List.cons_append, strBody_esc (ch := Char.ofNat 9) (by decide) (by decide), ih]; rfl
  | @u v t a b c d na nb nc nd ha hb hc hd ch hch _ ih =>
    have ha := hexVal_of ha
    have hb := hexVal_of hb
    have hc := hexVal_of hc
    have hd := hexVal_of hd
    have hx : hex4 a b c d = some ch.toNat := by
      unfold hex4
      simp only [ha.1, hb.1, hc.1, hd.1, Option.some.injEq]
      omega
    simp only [List.cons_append]
    rw [strBody_u hx, ih, utf8_eq ch (by omega)]
    rfl

theorem isWs_of {w : Bytes} (h : WsText w) {c : Char} (hc : c ∈ w) : isWs c = true := by
  rcases h c hc with rfl | rfl | rfl | rfl <;> decide

theorem skipWs_ws {w : Bytes} (h : WsText w) (t : Bytes) : skipWs (w ++ t) = skipWs t := by
  induction w with
  | nil => rfl
  | cons c cs ih =>
    rw [List.cons_append, skipWs, if_pos (isWs_of h (by simp))]
    exact ih (fun x hx => h x (by simp [hx]))

variable {D : Type} [DblFmt D]

theorem parseValue_skipWs (n : Nat) (s : Bytes) : parseValue (D := D) n (skipWs s) = parseValue n s := by
  cases n with
  | zero => simp [parseValue]
  | succ n => rw [parseValue.eq_def, parseValue.eq_def]; simp only [skipWs_idem]

theorem parseValue_ws {w : Bytes} (h : WsText w) (n : Nat) (t : Bytes) :
    parseValue (D := D) n (w ++ t) = parseValue n t := by
  rw [← parseValue_skipWs n (w ++ t), skipWs_ws h, parseValue_skipWs]

theorem parseString_ws {w : Bytes} (h : WsText w) (t : Bytes) : parseString (w ++ t) = parseString t := by
  unfold parseString; rw [skipWs_ws h]

theorem numStop_ws {w : Bytes} (h : WsText w) {t : Bytes} (ht : NumStop t) : NumStop (w ++ t) := by
  cases w with
  | nil => exact ht
  | cons c cs =>
    intro x hx
    simp at hx
    subst hx
    rcases h c (by simp) with rfl | rfl | rfl | rfl <;> decide

theorem takeSign_none {ip rest : Bytes} (hne : ip ≠ []) (hi : Digits ip) : takeSign (ip ++ rest) = ([], ip ++ rest) := by
  cases ip with
  | nil => exact absurd rfl hne
  | cons c cs => exact takeSign_dig (hi c (by simp))

theorem parseNumber_num (d : D) (sg ip fr ex : Bytes) (hs : sg = [] ∨ sg = ['-']) (hi : ip ≠ []) (hi' : Digits ip)
    (hf : FracText fr) (he : ExpText ex) (hne : fr ≠ [] ∨ ex ≠ []) (hd : DblFmt.parse (sg ++ ip ++ fr ++ ex) = some d)
    (rest : Bytes) (hr : NumStop rest) :
    parseNumber (D := D) ((sg ++ ip ++ fr ++ ex) ++ rest) = (.dbl d, rest) := by
  have hr1 : ∀ c ∈ rest.head?, isDig c = false := fun c hc => (hr c hc).1
  have hex : takeExp (ex ++ rest) = (decide (ex ≠ []), ex, rest) := by
    rcases he with rfl | ⟨e, sg', ds, he', hsg', hds, hds', rfl⟩
    · simpa using takeExp_none (fun c hc => (hr c hc).2.2)
    · have hsg2 : takeSign (sg' ++ ds ++ rest) = (sg', ds ++ rest) := by
        rcases hsg' with rfl | rfl | rfl
        · exact takeSign_none hds hds'
        · simp [takeSign]
        · simp [takeSign]
      rw [List.cons_append, takeExp, if_pos he']
      simp only [hsg2, takeDigits_append hds' rest hr1]
      simp
  have hexh : ∀ c ∈ (ex ++ rest).head?, isDig c = false ∧ c ≠ '.' := by
    rcases he with rfl | ⟨e, sg', ds, he', hsg', hds, hds', rfl⟩
    · intro c hc; exact ⟨(hr c hc).1, (hr c hc).2.1⟩
    · intro c hc
      simp only [List.cons_append, List.head?_cons, Option.mem_def, Option.some.injEq] at hc
      subst hc
      rcases he' with rfl | rfl <;> decide
  have hfr : takeFrac (fr ++ (ex ++ rest)) = (decide (fr ≠ []), fr, ex ++ rest) := by
    rcases hf with rfl | ⟨ds, hds, rfl⟩
    · simpa using takeFrac_none (fun c hc => (hexh c hc).2)
    · rw [List.cons_append, takeFrac]
      rw [takeDigits_append hds _ (fun c hc => (hexh c hc).1)]
      simp
  have hfrh : ∀ c ∈ (fr ++ (ex ++ rest)).head?, isDig c = false := by
    rcases hf with rfl | ⟨ds, hds, rfl⟩
    · intro c hc; exact (hexh c hc).1
    · intro c hc
      simp only [List.cons_append, List.head?_cons, Option.mem_def, Option.some.injEq] at hc
      subst hc; decide
  have hsgn : takeSign (sg ++ ip ++ fr ++ ex ++ rest) = (sg, ip ++ (fr ++ (ex ++ rest))) := by
    rcases hs with rfl | rfl
    · simp only [List.nil_append, List.append_assoc]; exact takeSign_none hi hi'
    · simp [takeSign]
  unfold parseNumber
  simp only [hsgn, takeDigits_append hi' _ hfrh, hfr, hex]
  rw [if_neg, hd]
  simp only [decide_eq_false_iff_not, not_and, Decidable.not_not]
  intro h1 h2; rcases hne with h | h
  · exact h h1
  · exact h h2

theorem jtext_head {v : JVal D} {t : Bytes} (h : JText v t) :
    ∃ c cs, t = c :: cs ∧ isWs c = false ∧ c ≠ ']' ∧ c ≠ '}' := by
  have hd : ∀ (ip tl : Bytes), ip ≠ [] → Digits ip → ∃ c cs, ip ++ tl = c :: cs ∧ NumHead c := by
    intro ip tl h1 h2
    cases ip with
    | nil => exact absurd rfl h1
    | cons c cs => exact ⟨c, cs ++ tl, rfl, Or.inl (h2 c (by simp))⟩
  have key : ∀ t : Bytes, (∃ c cs, t = c :: cs ∧ NumHead c) → ∃ c cs, t = c :: cs ∧ isWs c = false ∧ c ≠ ']' ∧ c ≠ '}' := by
    rintro t ⟨c, cs, h1, h2⟩
    exact ⟨c, cs, h1, h2.facts.1, h2.facts.2.1, h2.facts.2.2.1⟩
  cases h with
  | null => exact ⟨_, _, rfl, by decide⟩
  | true => exact ⟨_, _, rfl, by decide⟩
  | false => exact ⟨_, _, rfl, by decide⟩
  | nat n h =>
    apply key
    obtain ⟨c, cs, h1, h2⟩ := hd (natDec n) [] (natDec_ne_nil n) (fun c hc => natDec_isDig hc)
    exact ⟨c, cs, by rw [← h1]; simp, h2⟩
  | neg n h => exact ⟨'-', _, rfl, by decide⟩
  | num d sg ip fr ex hs hi hi' hf he hne hd' =>
    apply key
    rcases hs with rfl | rfl
    · obtain ⟨c, cs, h1, h2⟩ := hd ip (fr ++ ex) hi hi'
      exact ⟨c, cs, by rw [← h1]; simp, h2⟩
    · exact ⟨'-', ip ++ (fr ++ ex), by simp, Or.inr rfl⟩
  | str h => exact ⟨_, _, rfl, by decide⟩
  | arr0 w h => exact ⟨_, _, rfl, by decide⟩
  | arr h => exact ⟨_, _, rfl, by decide⟩
  | obj0 w h => exact ⟨_, _, rfl, by decide⟩
  | obj h hk => exact ⟨_, _, rfl, by decide⟩

theorem jtexts_head {l : List (JVal D)} {t : Bytes} (h : JTexts l t) (tl : Bytes) :
    ∃ c cs, skipWs (t ++ tl) = c :: cs ∧ c ≠ ']' := by
  cases h with
  | one h1 h h2 =>
    obtain ⟨c, cs, rfl, hc, hc2, _⟩ := jtext_head h
    refine ⟨c, ?w1, ?h1, hc2⟩
    case h1 =>
      simp only [List.append_assoc, List.cons_append]
      rw [skipWs_ws h1, skipWs_cons hc]
  | cons h1 h h2 hl =>
    obtain ⟨c, cs, rfl, hc, hc2, _⟩ := jtext_head h
    refine ⟨c, ?w2, ?h2, hc2⟩
    case h2 =>
      simp only [List.append_assoc, List.cons_append]
      rw [skipWs_ws h1, skipWs_cons hc]

theorem jmembers_head {l : List (Bytes × JVal D)} {t : Bytes} (h : JMembers l t) (tl : Bytes) :
    ∃ c cs, skipWs (t ++ tl) = c :: cs ∧ c ≠ '}' := by
  cases h with
  | one h1 hk h2 h3 h h4 =>
    refine ⟨'"', ?w3, ?h3, by decide⟩
    case h3 =>
      simp only [List.append_assoc, List.cons_append]
      rw [skipWs_ws h1, skipWs_cons (by decide)]
  | cons h1 hk h2 h3 h h4 hl =>
    refine ⟨'"', ?w4, ?h4, by decide⟩
    case h4 =>
      simp only [List.append_assoc, List.cons_append]
      rw [skipWs_ws h1, skipWs_cons (by decide)]

theorem objLoop_skipWs (n : Nat) (acc : List (Bytes × JVal D)) (s : Bytes) : objLoop n acc (skipWs s) = objLoop n acc s := by
  cases n with
  | zero => simp [objLoop]
  | succ n =>
    have : parseString (skipWs s) = parseString s := by unfold parseString; rw [skipWs_idem]
    rw [objLoop.eq_def, objLoop.eq_def]; simp only [this]

theorem arrLoop_skipWs (n : Nat) (s : Bytes) : arrLoop (D := D) n (skipWs s) = arrLoop n s := by
  cases n with
  | zero => simp [arrLoop]
  | succ n =>
    rw [arrLoop.eq_def, arrLoop.eq_def]; simp only [parseValue_skipWs]

theorem nameOrder_snoc (ks : List Bytes) (k : Bytes) :
    nameOrder (ks ++ [k]) = nameOrder ks ++ (if k ∈ ks then [] else [k]) := by
  induction ks with
  | nil => simp [nameOrder]
  | cons a ks ih =>
    rw [List.cons_append, nameOrder, ih, nameOrder, List.filter_append]
    by_cases h : k ∈ ks
    · rw [if_pos h, if_pos (by simp [h])]; simp
    · rw [if_neg h]
      by_cases e : k = a
      · rw [if_pos (by simp [e])]; simp [e]
      · rw [if_neg (by simp [h, e])]; simp [e]

theorem nameOrder_mem {ks : List Bytes} {k : Bytes} : k ∈ nameOrder ks ↔ k ∈ ks := by
  induction ks with
  | nil => simp [nameOrder]
  | cons a ks ih =>
    rw [nameOrder, List.mem_cons, List.mem_filter, ih, List.mem_cons]
    by_cases e : k = a <;> simp [e]

theorem nameOrder_nodup (ks : List Bytes) : (nameOrder ks).Nodup := by
  induction ks with
  | nil => simp [nameOrder]
  | cons a ks ih =>
    rw [nameOrder, List.nodup_cons]
    exact ⟨by simp, ih.filter _⟩

theorem filterMap_ext {α β : Type} {f g : α → Option β} (l : List α) (h : ∀ x ∈ l, f x = g x) : l.filterMap f = l.filterMap g := by
  induction l with
  | nil => rfl
  | cons a l ih => rw [List.filterMap_cons, List.filterMap_cons, h a (by simp), ih (fun x hx => h x (by simp [hx]))]

theorem putKey_filterMap {α : Type} (k : Bytes) (v : α) (g : Bytes → Option (Bytes × α)) (ks : List Bytes) (hn : ks.Nodup)
    (hg : ∀ x ∈ ks, ∃ w, g x = some (x, w)) :
    putKey k v (ks.filterMap g) =
      (ks ++ if k ∈ ks then [] else [k]).filterMap (fun x => if k = x then some (k, v) else g x) := by
  induction ks with
  | nil => simp [putKey]
  | cons a ks ih =>
    obtain ⟨w, hw⟩ := hg a (by simp)
    rw [List.nodup_cons] at hn
    rw [List.filterMap_cons, hw]
    simp only [putKey]
    by_cases e : a = k
    · subst e
      rw [if_pos rfl, if_pos (by simp), List.append_nil, List.filterMap_cons, if_pos rfl]
      simp only [List.cons.injEq, true_and]
      apply filterMap_ext
      intro x hx
      rw [if_neg]
      rintro rfl
      exact hn.1 hx
    · rw [if_neg e, ih hn.2 (fun x hx => hg x (by simp [hx])), List.cons_append, List.filterMap_cons, hw]
      have : (k ∈ a :: ks) = (k ∈ ks) := by simp [show k ≠ a from fun h => e h.symm]
      simp only [this, show (k = a) = False by simp [show k ≠ a from fun h => e h.symm], if_false]

/-- Inserting the members one after the other leaves the last value of each name. -/
theorem foldl_putKey {α : Type} (ms : List (Bytes × α)) : ms.foldl (fun a p => putKey p.1 p.2 a) [] = lastWins ms := by
  have key : ∀ r : List (Bytes × α), r.reverse.foldl (fun a p => putKey p.1 p.2 a) [] = lastWins r.reverse := by
    intro r
    induction r with
    | nil => rfl
    | cons p r ih =>
      rw [List.reverse_cons, List.foldl_append, ih]
      simp only [List.foldl_cons, List.foldl_nil]
      unfold lastWins
      rw [List.map_append, List.map_cons, List.map_nil, nameOrder_snoc, putKey_filterMap _ _ _ _ (nameOrder_nodup _)]
      · simp only [nameOrder_mem, List.reverse_append, List.reverse_cons, List.reverse_nil, List.nil_append, List.cons_append, List.find?_cons]
        apply filterMap_ext
        intro x _
        by_cases e : p.1 = x <;> simp [e]
        subst e; rfl
      · intro x hx
        rw [nameOrder_mem] at hx
        obtain ⟨q, hq, rfl⟩ := List.mem_map.1 hx
        cases hf : r.reverse.reverse.find? (fun p => decide (p.1 = q.1)) with
        | none =>
          rw [List.find?_eq_none] at hf
          exact absurd (decide_eq_true rfl) (hf q (by rw [List.reverse_reverse]; exact List.mem_reverse.1 hq))
        | some z =>
          have hz := List.find?_some hf
          simp only [decide_eq_true_eq] at hz
          exact ⟨z.2, by rw [← hz]⟩
  have := key ms.reverse
  rwa [List.reverse_reverse] at this

mutual
theorem complete_value : ∀ {v : JVal D} {t : Bytes}, JText v t → ∀ rest, NumStop rest →
    ∃ N, ∀ n, N ≤ n → parseValue n (t ++ rest) = .ok v rest
  | _, _, .null, rest, _ => by
    refine ⟨1, fun n hn => ?_⟩
    obtain ⟨m, rfl⟩ : ∃ m, n = m + 1 := ⟨n - 1, by omega⟩
    simp only [lit, String.reduceToList, List.cons_append, List.nil_append]
    rw [parseValue_scalar (by decide) (by decide) (by decide) (by decide)]
    simp [parseScalar, lit, List.isPrefixOf]
  | _, _, .true, rest, _ => by
    refine ⟨1, fun n hn => ?_⟩
    obtain ⟨m, rfl⟩ : ∃ m, n = m + 1 := ⟨n - 1, by omega⟩
    simp only [lit, String.reduceToList, List.cons_append, List.nil_append]
    rw [parseValue_scalar (by decide) (by decide) (by decide) (by decide)]
    simp [parseScalar, lit, List.isPrefixOf]
  | _, _, .false, rest, _ => by
    refine ⟨1, fun n hn => ?_⟩
    obtain ⟨m, rfl⟩ : ∃ m, n = m + 1 := ⟨n - 1, by omega⟩
    simp only [lit, String.reduceToList, List.cons_append, List.nil_append]
    rw [parseValue_scalar (by decide) (by decide) (by decide) (by decide)]
    simp [parseScalar, lit, List.isPrefixOf]
  | _, _, .nat k h, rest, hr => by
    refine ⟨1, fun n hn => ?_⟩
    obtain ⟨m, rfl⟩ : ∃ m, n = m + 1 := ⟨n - 1, by omega⟩
    have hp := parseNumber_int (D := D) (k : Int) (by unfold Int64OK; omega) rest hr
    have e : intDec (k : Int) = natDec k := rfl
    rw [e] at hp
    obtain ⟨c, cs, h1, h2⟩ := intDec_head (k : Int)
    rw [e] at h1
    rw [h1] at hp ⊢
    rw [List.cons_append] at hp ⊢
    rw [parseValue_num h2, hp]
  | _, _, .neg k h, rest, hr => by
    refine ⟨1, fun n hn => ?_⟩
    obtain ⟨m, rfl⟩ : ∃ m, n = m + 1 := ⟨n - 1, by omega⟩
    have hr1 : ∀ c ∈ rest.head?, isDig c = false := fun c hc => (hr c hc).1
    have hp : parseNumber (D := D) ('-' :: (natDec k ++ rest)) = (.int (-(k : Int)), rest) := by
      have hs : takeSign ('-' :: (natDec k ++ rest)) = (['-'], natDec k ++ rest) := by simp [takeSign]
      have ht := takeDigits_append (fun c hc => natDec_isDig (n := k) hc) rest hr1
      unfold parseNumber
      simp only [hs, ht, takeFrac_none (fun c hc => (hr c hc).2.1), takeExp_none (fun c hc => (hr c hc).2.2), and_self, if_true]
      rw [stollSigned_neg k (by unfold Int64OK; omega)]
    rw [List.cons_append, parseValue_num (Or.inr rfl), hp]
  | _, _, .num d sg ip fr ex hs hi hi' hf he hne hd, rest, hr => by
    refine ⟨1, fun n hn => ?_⟩
    obtain ⟨m, rfl⟩ : ∃ m, n = m + 1 := ⟨n - 1, by omega⟩
    have hp := parseNumber_num d sg ip fr ex hs hi hi' hf he hne hd rest hr
    have hh : ∃ c cs, (sg ++ ip ++ fr ++ ex) ++ rest = c :: cs ∧ NumHead c := by
      rcases hs with rfl | rfl
      · cases ip with
        | nil => exact absurd rfl hi
        | cons c cs => exact ⟨c, cs ++ fr ++ ex ++ rest, by simp, Or.inl (hi' c (by simp))⟩
      · exact ⟨'-', ip ++ fr ++ ex ++ rest, by simp, Or.inr rfl⟩
    obtain ⟨c, cs, h1, h2⟩ := hh
    rw [h1] at hp ⊢
    rw [parseValue_num h2, hp]
  | _, _, .str h, rest, _ => by
    refine ⟨1, fun n hn => ?_⟩
    obtain ⟨m, rfl⟩ : ∃ m, n = m + 1 := ⟨n - 1, by omega⟩
    simp only [List.cons_append, List.append_assoc, List.nil_append]
    rw [parseValue.eq_def]
    simp only [skipWs_cons (show isWs '"' = false by decide), if_true]
    rw [strBody_text h]
    rfl
  | _, _, .arr0 w h, rest, _ => by
    refine ⟨1, fun n hn => ?_⟩
    obtain ⟨m, rfl⟩ : ∃ m, n = m + 1 := ⟨n - 1, by omega⟩
    simp only [List.cons_append, List.append_assoc, List.nil_append]
    rw [parseValue.eq_def]
    simp only [skipWs_cons (show isWs '[' = false by decide), skipWs_ws h, skipWs_cons (show isWs ']' = false by decide)]
    simp
  | _, _, .arr (l := l) (t := t) h, rest, _ => by
    obtain ⟨N, hN⟩ := complete_list h rest
    refine ⟨N + 1, fun n hn => ?_⟩
    obtain ⟨m, rfl⟩ : ∃ m, n = m + 1 := ⟨n - 1, by omega⟩
    have hl := hN m (by omega)
    obtain ⟨c, cs, h1, h2⟩ := jtexts_head h (']' :: rest)
    rw [← arrLoop_skipWs, h1] at hl
    simp only [List.cons_append, List.append_assoc, List.nil_append]
    rw [parseValue.eq_def]
    simp only [skipWs_cons (show isWs '[' = false by decide)]
    rw [if_neg (by decide), if_neg (by decide), if_pos trivial, h1]
    split
    · next heq => simp at heq; exact absurd heq.1 h2
    · rw [hl]; rfl
  | _, _, .obj0 w h, rest, _ => by
    refine ⟨1, fun n hn => ?_⟩
    obtain ⟨m, rfl⟩ : ∃ m, n = m + 1 := ⟨n - 1, by omega⟩
    simp only [List.cons_append, List.append_assoc, List.nil_append]
    rw [parseValue.eq_def]
    simp only [skipWs_cons (show isWs '{' = false by decide), skipWs_ws h, skipWs_cons (show isWs '}' = false by decide)]
    simp
  | _, _, .obj (ms := mem) (t := t) h hm, rest, _ => by
    obtain ⟨N, hN⟩ := complete_members h [] rest
    rw [foldl_putKey, ← hm] at hN
    refine ⟨N + 1, fun n hn => ?_⟩
    obtain ⟨m, rfl⟩ : ∃ m, n = m + 1 := ⟨n - 1, by omega⟩
    have hl := hN m (by omega)
    obtain ⟨c, cs, h1, h2⟩ := jmembers_head h ('}' :: rest)
    rw [← objLoop_skipWs, h1] at hl
    simp only [List.cons_append, List.append_assoc, List.nil_append]
    rw [parseValue.eq_def]
    simp only [skipWs_cons (show isWs '{' = false by decide)]
    rw [if_neg (by decide), if_pos trivial, h1]
    split
    · next heq => simp at heq; exact absurd heq.1 h2
    · rw [hl]
theorem complete_list : ∀ {l : List (JVal D)} {t : Bytes}, JTexts l t → ∀ rest,
    ∃ N, ∀ n, N ≤ n → arrLoop n (t ++ ']' :: rest) = .ok l rest
  | _, _, .one (v := v) (t := t) (w1 := w1) (w2 := w2) h1 h h2, rest => by
    obtain ⟨N, hN⟩ := complete_value h (w2 ++ ']' :: rest)
      (numStop_ws h2 (numStop_of_cons (by decide) (by decide) (by decide) (by decide)))
    refine ⟨N + 1, fun n hn => ?_⟩
    obtain ⟨m, rfl⟩ : ∃ m, n = m + 1 := ⟨n - 1, by omega⟩
    have hv := hN m (by omega)
    rw [arrLoop.eq_def]
    simp only [List.append_assoc, parseValue_ws h1, hv, skipWs_ws h2, skipWs_cons (show isWs ']' = false by decide)]
  | _, _, .cons (v := v) (t := t) (w1 := w1) (w2 := w2) (l := l) (ts := ts) h1 h h2 hl, rest => by
    obtain ⟨N, hN⟩ := complete_value h (w2 ++ ',' :: (ts ++ ']' :: rest))
      (numStop_ws h2 (numStop_of_cons (by decide) (by decide) (by decide) (by decide)))
    obtain ⟨M, hM⟩ := complete_list hl rest
    refine ⟨N + M + 1, fun n hn => ?_⟩
    obtain ⟨m, rfl⟩ : ∃ m, n = m + 1 := ⟨n - 1, by omega⟩
    have hv := hN m (by omega)
    have ht := hM m (by omega)
    rw [arrLoop.eq_def]
    simp only [List.append_assoc, List.cons_append, parseValue_ws h1, hv, skipWs_ws h2,
      skipWs_cons (show isWs ',' = false by decide), ht]
    rfl
theorem complete_members : ∀ {l : List (Bytes × JVal D)} {t : Bytes}, JMembers l t →
    ∀ (acc : List (Bytes × JVal D)) (rest : Bytes),
    ∃ N, ∀ n, N ≤ n → objLoop n acc (t ++ '}' :: rest) = .ok (.obj (l.foldl (fun a p => putKey p.1 p.2 a) acc)) rest
  | _, _, .one (k := k) (kt := kt) (v := v) (t := t) (w1 := w1) (w2 := w2) (w3 := w3) (w4 := w4) h1 hk h2 h3 h h4,
      acc, rest => by
    obtain ⟨N, hN⟩ := complete_value h (w4 ++ '}' :: rest)
      (numStop_ws h4 (numStop_of_cons (by decide) (by decide) (by decide) (by decide)))
    refine ⟨N + 1, fun n hn => ?_⟩
    obtain ⟨m, rfl⟩ : ∃ m, n = m + 1 := ⟨n - 1, by omega⟩
    have hv := hN m (by omega)
    have hkp : parseString ('"' :: (kt ++ '"' :: (w2 ++ ':' :: (w3 ++ (t ++ (w4 ++ '}' :: rest))))))
        = .ok k (w2 ++ ':' :: (w3 ++ (t ++ (w4 ++ '}' :: rest)))) := by
      rw [parseString, skipWs_cons (by decide)]
      exact strBody_text hk _
    rw [objLoop.eq_def]
    simp only [List.append_assoc, List.cons_append, parseString_ws h1, hkp, skipWs_ws h2,
      skipWs_cons (show isWs ':' = false by decide), parseValue_ws h3, hv, skipWs_ws h4,
      skipWs_cons (show isWs '}' = false by decide)]
    rfl
  | _, _, .cons (k := k) (kt := kt) (v := v) (t := t) (w1 := w1) (w2 := w2) (w3 := w3) (w4 := w4) (l := l) (ts := ts)
      h1 hk h2 h3 h h4 hl, acc, rest => by
    obtain ⟨N, hN⟩ := complete_value h (w4 ++ ',' :: (ts ++ '}' :: rest))
      (numStop_ws h4 (numStop_of_cons (by decide) (by decide) (by decide) (by decide)))
    obtain ⟨M, hM⟩ := complete_members hl (putKey k v acc) rest
    refine ⟨N + M + 1, fun n hn => ?_⟩
    obtain ⟨m, rfl⟩ : ∃ m, n = m + 1 := ⟨n - 1, by omega⟩
    have hv := hN m (by omega)
    have ht := hM m (by omega)
    have hkp : parseString ('"' :: (kt ++ '"' :: (w2 ++ ':' :: (w3 ++ (t ++ (w4 ++ ',' :: (ts ++ '}' :: rest)))))))
        = .ok k (w2 ++ ':' :: (w3 ++ (t ++ (w4 ++ ',' :: (ts ++ '}' :: rest))))) := by
      rw [parseString, skipWs_cons (by decide)]
      exact strBody_text hk _
    rw [objLoop.eq_def]
    simp only [List.append_assoc, List.cons_append, parseString_ws h1, hkp, skipWs_ws h2,
      skipWs_cons (show isWs ':' = false by decide), parseValue_ws h3, hv, skipWs_ws h4,
      skipWs_cons (show isWs ',' = false by decide)]
    rw [ht]
    rfl
end

end Verif
