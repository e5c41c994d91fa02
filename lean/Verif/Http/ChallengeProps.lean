import Verif.Http.Challenge

/-!
C48: the challenges of the server are understood by the client.
-/

namespace Verif
open Http

/-! ### Specification: the texts of a challenge -/

def Blank (s : Bytes) : Prop := ∀ c ∈ s, c = ' ' ∨ c = '\t'

/-- A token of a header: no separator in it, and not empty. -/
def HdrToken (t : Bytes) : Prop := t ≠ [] ∧ ∀ c ∈ t, c ≠ ' ' ∧ c ≠ '\t' ∧ c ≠ '=' ∧ c ≠ ',' ∧ c ≠ '"'

/-- The texts between the quotes that stand for a value (RFC 9110, 5.6.4). -/
inductive QText : Bytes → Bytes → Prop
  | nil : QText [] []
  | plain (c v t) : c ≠ '\\' → c ≠ '"' → QText v t → QText (c :: v) (c :: t)
  | pair (c v t) : QText v t → QText (c :: v) ('\\' :: c :: t)

/-- An unquoted value: no comma, not starting with a quote or blank, not ending with a blank. -/
structure Bare (v : Bytes) : Prop where
  comma : ',' ∉ v
  first : ∀ c, v.head? = some c → c ≠ '"' ∧ c ≠ ' ' ∧ c ≠ '\t'
  last : ∀ c, v.getLast? = some c → c ≠ ' ' ∧ c ≠ '\t'

/-- The texts of one parameter. -/
inductive PText : Bytes × Bytes → Bytes → Prop
  | quoted (k v t b b') : HdrToken k → Blank b → Blank b' → QText v t → PText (k, v) (k ++ b ++ ('=' :: b') ++ ('"' :: t ++ ['"']))
  | bare (k v b b') : HdrToken k → Blank b → Blank b' → Bare v → PText (k, v) (k ++ b ++ ('=' :: b') ++ v)

/-- The texts of a list of parameters. -/
inductive CText : List (Bytes × Bytes) → Bytes → Prop
  | one (p t b) : PText p t → Blank b → CText [p] (t ++ b)
  | more (p t b b' ps r) : PText p t → Blank b → Blank b' → CText ps r → CText (p :: ps) (t ++ b ++ (',' :: b') ++ r)

/-- The value of a parameter, names compared without regard to letter case; the last of several counts. -/
def lastValue (ps : List (Bytes × Bytes)) (k : Bytes) : Option Bytes :=
  (ps.reverse.find? (fun p => p.1.map lowerCh = k)).map (·.2)

/-! ### Lemmas -/

theorem skipBlanks_blank (b s : Bytes) (h : Blank b) : skipBlanks (b ++ s) = skipBlanks s := by
  induction b with
  | nil => rfl
  | cons c b ih =>
    have hc : isBlank c = true := by rcases h c (by simp) with rfl | rfl <;> rfl
    show List.dropWhile isBlank (c :: (b ++ s)) = _
    rw [List.dropWhile_cons, hc]
    exact ih (fun x hx => h x (by simp [hx]))

theorem skipBlanks_all (b : Bytes) (h : Blank b) : skipBlanks b = [] := by
  have := skipBlanks_blank b [] h
  rw [List.append_nil] at this
  exact this

theorem skipBlanks_stop (c : Char) (s : Bytes) (h1 : c ≠ ' ') (h2 : c ≠ '\t') : skipBlanks (c :: s) = c :: s := by
  show List.dropWhile isBlank (c :: s) = _
  rw [List.dropWhile_cons]
  simp [isBlank, h1, h2]

theorem skipBlanks_length (s : Bytes) : (skipBlanks s).length ≤ s.length := by
  induction s with
  | nil => exact Nat.le_refl _
  | cons c s ih =>
    show (List.dropWhile isBlank (c :: s)).length ≤ _
    rw [List.dropWhile_cons]
    split
    · exact Nat.le_succ_of_le ih
    · exact Nat.le_refl _

/-- The rest after a token: nothing, or a character that ends it. -/
def Stops (s : Bytes) : Prop := s = [] ∨ ∃ c r, s = c :: r ∧ endsToken c = true

theorem parseToken_app (t s : Bytes) (h : ∀ c ∈ t, c ≠ ' ' ∧ c ≠ '\t' ∧ c ≠ '=' ∧ c ≠ ',' ∧ c ≠ '"') (hs : Stops s) :
    parseToken (t ++ s) = (t, s) := by
  induction t with
  | nil =>
    rcases hs with rfl | ⟨c, r, rfl, hc⟩
    · rfl
    · show (if endsToken c then _ else _) = _
      rw [if_pos hc]
  | cons c t ih =>
    obtain ⟨h1, h2, h3, h4, h5⟩ := h c (by simp)
    have hc : ¬ endsToken c = true := by simp [endsToken, h1, h2, h3, h4, h5]
    show (if endsToken c then _ else (c :: (parseToken (t ++ s)).1, (parseToken (t ++ s)).2)) = _
    rw [if_neg hc, ih (fun x hx => h x (by simp [hx]))]

theorem parseToken_length (s : Bytes) : (parseToken s).1.length + (parseToken s).2.length = s.length := by
  induction s with
  | nil => rfl
  | cons c s ih =>
    unfold parseToken
    split
    · simp
    · simp only [List.length_cons]
      omega

theorem quotedRest_text (v t r : Bytes) (h : QText v t) : quotedRest (t ++ '"' :: r) = some (v, r) := by
  induction h with
  | nil => rfl
  | plain c v t h1 h2 _ ih =>
    show quotedRest (c :: (t ++ '"' :: r)) = _
    rw [quotedRest.eq_5, ih]
    · rfl
    · intro d s e; exact absurd e h1
    · intro e; exact absurd e h1
    · exact h2
  | pair c v t _ ih =>
    show quotedRest ('\\' :: c :: (t ++ '"' :: r)) = _
    rw [quotedRest.eq_2, ih]
    rfl

theorem quotedRest_length (s v r : Bytes) (h : quotedRest s = some (v, r)) : r.length < s.length := by
  induction s using quotedRest.induct generalizing v r with
  | case1 => exact absurd h (by simp [quotedRest])
  | case2 c s ih =>
    rw [quotedRest.eq_2] at h
    cases hq : quotedRest s with
    | none => rw [hq] at h; exact absurd h (by simp)
    | some p =>
      rw [hq] at h
      simp only [Option.map_some, Option.some.injEq, Prod.mk.injEq] at h
      have := ih p.1 p.2 hq
      rw [← h.2]
      simp only [List.length_cons]
      omega
  | case3 => exact absurd h (by simp [quotedRest])
  | case4 s =>
    simp only [quotedRest, Option.some.injEq, Prod.mk.injEq] at h
    rw [← h.2]
    simp
  | case5 c s h1 h2 h3 ih =>
    rw [quotedRest.eq_5 c s h1 h2 h3] at h
    cases hq : quotedRest s with
    | none => rw [hq] at h; exact absurd h (by simp)
    | some p =>
      rw [hq] at h
      simp only [Option.map_some, Option.some.injEq, Prod.mk.injEq] at h
      have := ih p.1 p.2 hq
      rw [← h.2]
      simp only [List.length_cons]
      omega

theorem upToComma_app (v s : Bytes) (hv : ',' ∉ v) (hs : s = [] ∨ ∃ r, s = ',' :: r) : upToComma (v ++ s) = (v, s) := by
  induction v with
  | nil => rcases hs with rfl | ⟨r, rfl⟩ <;> rfl
  | cons c v ih =>
    have hc : ¬ c = ',' := by intro e; exact hv (by simp [e])
    show (if c = ',' then _ else (c :: (upToComma (v ++ s)).1, (upToComma (v ++ s)).2)) = _
    rw [if_neg hc, ih (fun h => hv (by simp [h]))]

theorem upToComma_length (s : Bytes) : (upToComma s).1.length + (upToComma s).2.length = s.length := by
  induction s with
  | nil => rfl
  | cons c s ih =>
    unfold upToComma
    split
    · simp
    · simp only [List.length_cons]
      omega

theorem trimBlanks_bare (v b : Bytes) (hv : Bare v) (hb : Blank b) : trimBlanks (v ++ b) = v := by
  unfold trimBlanks
  have h1 : ((v ++ b).reverse.dropWhile isBlank) = v.reverse := by
    rw [List.reverse_append]
    have hb' : Blank b.reverse := fun c hc => hb c (by simpa using hc)
    have := skipBlanks_blank b.reverse v.reverse hb'
    unfold skipBlanks at this
    rw [this]
    cases hr : v.reverse with
    | nil => rfl
    | cons c r =>
      have hl : v.getLast? = some c := by rw [← List.head?_reverse, hr]; rfl
      obtain ⟨h1, h2⟩ := hv.last c hl
      exact skipBlanks_stop c r h1 h2
  rw [h1, List.reverse_reverse]
  cases v with
  | nil => rfl
  | cons c r =>
    obtain ⟨_, h1, h2⟩ := hv.first c rfl
    exact skipBlanks_stop c r h1 h2

/-! ### Termination -/

theorem skipSeparator_length (s : Bytes) : (skipSeparator s).length ≤ s.length := by
  unfold skipSeparator
  split
  · next r =>
    have h1 := skipBlanks_length r
    have h2 := skipBlanks_length (skipBlanks r)
    simp only [List.length_cons]
    omega
  · exact skipBlanks_length s

theorem parseValue_length (key s k v r : Bytes) (h : parseValue key s = .param k v r) : r.length ≤ s.length := by
  unfold parseValue at h
  have hs := skipBlanks_length s
  split at h
  · next r0 he =>
    rw [he] at hs
    simp only [List.length_cons] at hs
    split at h
    · next v' r' hq =>
      simp only [Round.param.injEq] at h
      have h1 := quotedRest_length _ _ _ hq
      have h2 := skipBlanks_length r'
      rw [← h.2.2]
      omega
    · exact absurd h (by simp)
  · simp only [Round.param.injEq] at h
    have h1 := upToComma_length (skipBlanks s)
    have h2 := skipBlanks_length (upToComma (skipBlanks s)).2
    rw [← h.2.2]
    omega

theorem afterKeyword_length (key s k v r : Bytes) (h : afterKeyword key s = .param k v r) : r.length ≤ s.length := by
  unfold afterKeyword at h
  have hs := skipBlanks_length s
  split at h
  · next r0 he =>
    rw [he] at hs
    simp only [List.length_cons] at hs
    have := parseValue_length _ _ _ _ _ h
    omega
  · simp only [Round.param.injEq] at h
    rw [← h.2.2]
    exact hs

theorem round_length (s k v r : Bytes) (h : round s = .param k v r) : r.length < s.length := by
  unfold round at h
  simp only at h
  split at h
  · exact absurd h (by simp)
  · split at h
    · exact absurd h (by simp)
    · next hne =>
      have h1 := afterKeyword_length _ _ _ _ _ h
      have h2 := parseToken_length (skipSeparator s)
      have h3 := skipSeparator_length s
      have h4 : 0 < (parseToken (skipSeparator s)).1.length := List.length_pos_iff.2 hne
      omega

theorem params_ends (n : Nat) (s : Bytes) (acc : List (Bytes × Bytes)) (h : s.length < n) :
    ∃ out, ∀ fuel, n ≤ fuel → params fuel s acc = some out := by
  induction n generalizing s acc with
  | zero => omega
  | succ n ih =>
    by_cases hs : s = []
    · refine ⟨some acc, fun fuel hf => ?_⟩
      obtain ⟨f, rfl⟩ : ∃ f, fuel = f + 1 := ⟨fuel - 1, by omega⟩
      simp [params, hs]
    · cases hr : round s with
      | stop =>
        refine ⟨some acc, fun fuel hf => ?_⟩
        obtain ⟨f, rfl⟩ : ∃ f, fuel = f + 1 := ⟨fuel - 1, by omega⟩
        simp [params, hs, hr]
      | bad =>
        refine ⟨none, fun fuel hf => ?_⟩
        obtain ⟨f, rfl⟩ : ∃ f, fuel = f + 1 := ⟨fuel - 1, by omega⟩
        simp [params, hs, hr]
      | param k v r =>
        have hl := round_length s k v r hr
        obtain ⟨out, ho⟩ := ih r (AMap.put acc k v) (by omega)
        refine ⟨out, fun fuel hf => ?_⟩
        obtain ⟨f, rfl⟩ : ∃ f, fuel = f + 1 := ⟨fuel - 1, by omega⟩
        simp only [params, hs, if_false, hr]
        exact ho f (by omega)

/-- **C48.** The parser ends on every header: with at least as many rounds as the header has characters (and one more) it gives a result,
and more rounds give the same. -/
theorem C48_terminates (header : Bytes) : ∃ out, ∀ fuel, header.length < fuel → parseChallenge fuel header = some out := by
  unfold parseChallenge
  simp only
  by_cases h1 : (parseToken (skipBlanks header)).1 = []
  · exact ⟨none, fun _ _ => by rw [if_pos h1]⟩
  · by_cases h2 : lowerKey (parseToken (skipBlanks header)).1 ≠ lit "bearer"
    · exact ⟨none, fun _ _ => by rw [if_neg h1, if_pos h2]⟩
    · have ha := skipBlanks_length header
      have hb := parseToken_length (skipBlanks header)
      have hc := skipBlanks_length (parseToken (skipBlanks header)).2
      obtain ⟨out, ho⟩ := params_ends (header.length + 1) (skipBlanks (parseToken (skipBlanks header)).2) [] (by omega)
      exact ⟨out, fun fuel hf => by rw [if_neg h1, if_neg h2]; exact ho fuel hf⟩

/-! ### Well-formed challenges -/

theorem hdrToken_cons (k : Bytes) (h : HdrToken k) : ∃ c r, k = c :: r ∧ c ≠ ' ' ∧ c ≠ '\t' ∧ c ≠ ',' := by
  cases k with
  | nil => exact absurd rfl h.1
  | cons c r =>
    obtain ⟨h1, h2, _, h4, _⟩ := h.2 c (by simp)
    exact ⟨c, r, rfl, h1, h2, h4⟩

theorem ptext_start (p : Bytes × Bytes) (t : Bytes) (h : PText p t) : ∃ c r, t = c :: r ∧ c ≠ ' ' ∧ c ≠ '\t' ∧ c ≠ ',' := by
  cases h with
  | quoted k v t b b' hk =>
    obtain ⟨c, r, rfl, h⟩ := hdrToken_cons k hk
    exact ⟨c, _, rfl, h⟩
  | bare k v b b' hk =>
    obtain ⟨c, r, rfl, h⟩ := hdrToken_cons k hk
    exact ⟨c, _, rfl, h⟩

theorem ctext_start (ps : List (Bytes × Bytes)) (t : Bytes) (h : CText ps t) : ∃ c r, t = c :: r ∧ c ≠ ' ' ∧ c ≠ '\t' ∧ c ≠ ',' := by
  cases h with
  | one p t b hp =>
    obtain ⟨c, r, rfl, h⟩ := ptext_start p t hp
    exact ⟨c, _, rfl, h⟩
  | more p t b b' ps r hp =>
    obtain ⟨c, r, rfl, h⟩ := ptext_start p t hp
    exact ⟨c, _, rfl, h⟩

theorem ctext_length (ps : List (Bytes × Bytes)) (t : Bytes) (h : CText ps t) : ps.length ≤ t.length := by
  induction h with
  | one p t b hp =>
    obtain ⟨c, r, rfl, _⟩ := ptext_start p t hp
    simp
  | more p t b b' ps r _ _ _ _ ih =>
    simp only [List.length_cons, List.length_append]
    omega

/-- What may follow a parameter: blanks, then the end or a comma. -/
def CommaOrEnd (b s : Bytes) : Prop := Blank b ∧ (s = [] ∨ ∃ r, s = ',' :: r)

theorem follows_skip (b s : Bytes) (h : CommaOrEnd b s) : skipBlanks (b ++ s) = s := by
  rw [skipBlanks_blank b s h.1]
  rcases h.2 with rfl | ⟨r, rfl⟩
  · rfl
  · exact skipBlanks_stop ',' r (by decide) (by decide)

theorem stops_blank (b s : Bytes) (hb : Blank b) (hs : Stops s) : Stops (b ++ s) := by
  cases b with
  | nil => exact hs
  | cons c b =>
    refine .inr ⟨c, b ++ s, rfl, ?_⟩
    rcases hb c (by simp) with rfl | rfl <;> rfl

theorem round_param (p : Bytes × Bytes) (t b s s0 : Bytes) (h : PText p t) (hf : CommaOrEnd b s) (hs : skipSeparator s0 = t ++ (b ++ s)) :
    round s0 = .param (p.1.map lowerCh) p.2 s := by
  unfold round
  simp only [hs]
  cases h with
  | quoted k v q c c' hk hc hc' hq =>
    have e : k ++ c ++ ('=' :: c') ++ ('"' :: q ++ ['"']) ++ (b ++ s) = k ++ (c ++ '=' :: (c' ++ '"' :: (q ++ '"' :: (b ++ s)))) := by simp
    rw [e, parseToken_app k _ hk.2 (stops_blank c _ hc (.inr ⟨'=', _, rfl, rfl⟩)), if_neg (by simp [hk.1]), if_neg hk.1]
    unfold afterKeyword
    simp only [skipBlanks_blank c _ hc, skipBlanks_stop '=' _ (by decide) (by decide)]
    unfold parseValue
    simp only [skipBlanks_blank c' _ hc', skipBlanks_stop '"' _ (by decide) (by decide), quotedRest_text v q _ hq, follows_skip b s hf]
    rfl
  | bare k v c c' hk hc hc' hv =>
    have e : k ++ c ++ ('=' :: c') ++ v ++ (b ++ s) = k ++ (c ++ '=' :: (c' ++ (v ++ (b ++ s)))) := by simp
    rw [e, parseToken_app k _ hk.2 (stops_blank c _ hc (.inr ⟨'=', _, rfl, rfl⟩)), if_neg (by simp [hk.1]), if_neg hk.1]
    unfold afterKeyword
    simp only [skipBlanks_blank c _ hc, skipBlanks_stop '=' _ (by decide) (by decide)]
    have hcomma : ',' ∉ v ++ b := by
      simp only [List.mem_append, not_or]
      exact ⟨hv.comma, fun hx => by rcases hf.1 ',' hx with h | h <;> exact absurd h (by decide)⟩
    unfold parseValue
    simp only [skipBlanks_blank c' _ hc']
    cases v with
    | nil =>
      rw [List.nil_append, follows_skip b s hf]
      rcases hf.2 with rfl | ⟨r, rfl⟩ <;> rfl
    | cons x v =>
      obtain ⟨h1, h2, h3⟩ := hv.first x rfl
      have hu := upToComma_app (x :: v ++ b) s hcomma hf.2
      have hskip : skipBlanks s = s := by
        have := follows_skip [] s ⟨(by intro _ h; cases h), hf.2⟩
        simpa using this
      rw [List.cons_append, skipBlanks_stop x _ h2 h3]
      split
      · next r he => exact absurd (List.cons.inj he).1 h1
      · have e2 : x :: (v ++ (b ++ s)) = x :: v ++ b ++ s := by simp
        rw [e2, hu, trimBlanks_bare (x :: v) b hv hf.1, hskip]
        rfl

theorem lastValue_cons (p : Bytes × Bytes) (ps : List (Bytes × Bytes)) (k : Bytes) :
    lastValue (p :: ps) k = (lastValue ps k).or (if p.1.map lowerCh = k then some p.2 else none) := by
  unfold lastValue
  rw [List.reverse_cons, List.find?_append]
  cases List.find? (fun p => decide (List.map lowerCh p.1 = k)) ps.reverse with
  | some x => rfl
  | none =>
    by_cases h : p.1.map lowerCh = k <;> simp [h]

theorem skipSeparator_start (c : Char) (s : Bytes) (h1 : c ≠ ' ') (h2 : c ≠ '\t') (h3 : c ≠ ',') : skipSeparator (c :: s) = c :: s := by
  unfold skipSeparator
  split
  · next r he => exact absurd (List.cons.inj he).1 h3
  · exact skipBlanks_stop c s h1 h2

theorem params_ctext (ps : List (Bytes × Bytes)) (t : Bytes) (h : CText ps t) (s0 : Bytes) (hs : skipSeparator s0 = t) (hne : s0 ≠ [])
    (acc : List (Bytes × Bytes)) (fuel : Nat) (hf : ps.length < fuel) :
    ∃ m, params fuel s0 acc = some (some m) ∧ ∀ k, AMap.get m k = (lastValue ps k).or (AMap.get acc k) := by
  induction h generalizing s0 acc fuel with
  | one p t b hp hb =>
    obtain ⟨f, rfl⟩ : ∃ f, fuel = f + 2 := ⟨fuel - 2, by simp at hf; omega⟩
    have hr := round_param p t b [] s0 hp ⟨hb, .inl rfl⟩ (by rw [hs]; simp)
    refine ⟨AMap.put acc (p.1.map lowerCh) p.2, ?_, fun k => ?_⟩
    · simp [params, hne, hr]
    · rw [lastValue_cons, AMap.get_put]
      show _ = (Option.or none _).or _
      by_cases hk : p.1.map lowerCh = k
      · rw [if_pos hk, if_pos hk.symm]; rfl
      · rw [if_neg hk, if_neg (fun e => hk e.symm)]; rfl
  | more p t b b' ps r hp hb hb' hc ih =>
    obtain ⟨f, rfl⟩ : ∃ f, fuel = f + 1 := ⟨fuel - 1, by simp at hf; omega⟩
    have hr := round_param p t b (',' :: b' ++ r) s0 hp ⟨hb, .inr ⟨b' ++ r, rfl⟩⟩ (by rw [hs]; simp)
    obtain ⟨c, r', rfl, h1, h2, h3⟩ := ctext_start ps r hc
    have hsep : skipSeparator (',' :: b' ++ c :: r') = c :: r' := by
      show skipBlanks (skipBlanks (b' ++ c :: r')) = _
      rw [skipBlanks_blank b' _ hb', skipBlanks_stop c r' h1 h2, skipBlanks_stop c r' h1 h2]
    obtain ⟨m, hm, hg⟩ := ih (',' :: b' ++ c :: r') hsep (by simp) (AMap.put acc (p.1.map lowerCh) p.2) f (by simp at hf; omega)
    refine ⟨m, ?_, fun k => ?_⟩
    · simp only [params, hne, if_false, hr]
      exact hm
    · rw [hg k, lastValue_cons, AMap.get_put]
      cases lastValue ps k with
      | some x => rfl
      | none =>
        by_cases hk : p.1.map lowerCh = k
        · rw [if_pos hk, if_pos hk.symm]; rfl
        · rw [if_neg hk, if_neg (fun e => hk e.symm)]; rfl

theorem parse_ctext (b b' scheme : Bytes) (ps : List (Bytes × Bytes)) (t : Bytes) (hb : Blank b) (hb' : Blank b') (hne : b' ≠ [])
    (hsch : scheme.map lowerCh = lit "bearer") (htok : HdrToken scheme) (hc : CText ps t) (fuel : Nat)
    (hf : (b ++ scheme ++ b' ++ t).length < fuel) :
    ∃ m, parseChallenge fuel (b ++ scheme ++ b' ++ t) = some (some m) ∧ ∀ k, AMap.get m k = lastValue ps k := by
  obtain ⟨c, r, rfl, h1, h2, h3⟩ := ctext_start ps t hc
  obtain ⟨c0, r0, he, e1, e2, _⟩ := hdrToken_cons scheme htok
  have hlen := ctext_length ps _ hc
  have hst : Stops (b' ++ c :: r) := by
    cases b' with
    | nil => exact absurd rfl hne
    | cons x b' =>
      refine .inr ⟨x, _, rfl, ?_⟩
      rcases hb' x (by simp) with rfl | rfl <;> rfl
  obtain ⟨m, hm, hg⟩ := params_ctext ps (c :: r) hc (c :: r) (skipSeparator_start c r h1 h2 h3) (by simp) [] fuel
    (by simp only [List.length_append] at hf; omega)
  refine ⟨m, ?_, fun k => ?_⟩
  · unfold parseChallenge
    have hskip : skipBlanks (b ++ scheme ++ b' ++ c :: r) = scheme ++ (b' ++ c :: r) := by
      rw [List.append_assoc, List.append_assoc, skipBlanks_blank b _ hb, he]
      exact skipBlanks_stop c0 _ e1 e2
    simp only [hskip, parseToken_app scheme _ htok.2 hst, if_neg htok.1]
    rw [if_neg (by simp [lowerKey, hsch]), skipBlanks_blank b' _ hb', skipBlanks_stop c r h1 h2]
    exact hm
  · rw [hg k]
    cases lastValue ps k <;> rfl

/-- **C48.** A Bearer challenge (the scheme in any letter case) with a list of parameters, each value quoted in any of the ways the
standard allows or bare, with blanks anywhere around the separators, is parsed to exactly these parameters. -/
theorem C48_parses (b b' scheme : Bytes) (ps : List (Bytes × Bytes)) (t : Bytes) (hb : Blank b) (hb' : Blank b') (hne : b' ≠ [])
    (hsch : scheme.map lowerCh = lit "bearer") (htok : HdrToken scheme) (hc : CText ps t) :
    ∃ m, (∀ fuel, (b ++ scheme ++ b' ++ t).length < fuel → parseChallenge fuel (b ++ scheme ++ b' ++ t) = some (some m)) ∧
      ∀ k, AMap.get m k = lastValue ps k := by
  obtain ⟨out, ho⟩ := C48_terminates (b ++ scheme ++ b' ++ t)
  obtain ⟨m, hm, hg⟩ := parse_ctext b b' scheme ps t hb hb' hne hsch htok hc _ (Nat.lt_succ_self _)
  refine ⟨m, fun fuel hf => ?_, hg⟩
  rw [ho fuel hf, ← ho _ (Nat.lt_succ_self _), hm]

/-- **C48.** A header of another scheme is refused. -/
theorem C48_other_scheme (b scheme rest : Bytes) (fuel : Nat) (hb : Blank b) (htok : HdrToken scheme)
    (hrest : rest = [] ∨ ∃ c r, rest = c :: r ∧ (c = ' ' ∨ c = '\t' ∨ c = '=' ∨ c = ',' ∨ c = '"'))
    (hsch : scheme.map lowerCh ≠ lit "bearer") : parseChallenge fuel (b ++ scheme ++ rest) = some none := by
  obtain ⟨c0, r0, he, e1, e2, _⟩ := hdrToken_cons scheme htok
  have hst : Stops rest := by
    rcases hrest with h | ⟨c, r, h, hc⟩
    · exact .inl h
    · refine .inr ⟨c, r, h, ?_⟩
      rcases hc with rfl | rfl | rfl | rfl | rfl <;> rfl
  have hskip : skipBlanks (b ++ scheme ++ rest) = scheme ++ rest := by
    rw [List.append_assoc, skipBlanks_blank b _ hb, he]
    exact skipBlanks_stop c0 _ e1 e2
  unfold parseChallenge
  simp only [hskip, parseToken_app scheme rest htok.2 hst, if_neg htok.1]
  have hsch' : lowerKey scheme ≠ lit "bearer" := hsch
  rw [if_pos hsch']

example : HdrToken (lit "BEARER") ∧ (lit "BEARER").map lowerCh = lit "bearer" :=
  ⟨⟨by decide, by decide +kernel⟩, by decide +kernel⟩
example : CText [(lit "realm", lit "a\"b"), (lit "Scope", lit "x")] (lit "realm=\"a\\\"b\" ,Scope = x") :=
  .more (lit "realm", lit "a\"b") (lit "realm=\"a\\\"b\"") (lit " ") [] [(lit "Scope", lit "x")] (lit "Scope = x")
    (.quoted (lit "realm") (lit "a\"b") (lit "a\\\"b") [] [] ⟨by decide, by decide +kernel⟩ (by intro c h; cases h) (by intro c h; cases h)
      (.plain _ _ _ (by decide) (by decide) (.pair _ _ _ (.plain _ _ _ (by decide) (by decide) .nil))))
    (by unfold Blank; decide +kernel) (by intro c h; cases h)
    (.one (lit "Scope", lit "x") (lit "Scope = x") []
      (.bare (lit "Scope") (lit "x") (lit " ") (lit " ") ⟨by decide, by decide +kernel⟩ (by unfold Blank; decide +kernel)
        (by unfold Blank; decide +kernel)
        ⟨by decide +kernel, fun c h => by cases h; decide, fun c h => by cases h; decide⟩)
      (by intro c h; cases h))
example : HdrToken (lit "Basic") ∧ (lit "Basic").map lowerCh ≠ lit "bearer" := ⟨⟨by decide, by decide +kernel⟩, by decide +kernel⟩

/-! ### The header of the server -/

theorem quoteBody_text (s : Bytes) : QText s (quoteBody s) := by
  induction s with
  | nil => exact .nil
  | cons c s ih =>
    unfold quoteBody
    split
    · exact .pair c s _ ih
    · next h =>
      rw [not_or] at h
      exact .plain c s _ h.1 h.2 ih

theorem joinScopes_eq (l : List Bytes) : joinScopes l = (lit " ").intercalate l := by
  induction l with
  | nil => rfl
  | cons s l ih =>
    cases l with
    | nil => simp [joinScopes, List.intercalate]
    | cons s' l =>
      show s ++ lit " " ++ joinScopes (s' :: l) = _
      rw [ih]
      simp [List.intercalate]

/-- What the server means to tell with a refusal of a status: the address of the metadata, the scopes required and, for 403, the error. -/
structure Advertises (status : Nat) (url : Bytes) (scopes : List Bytes) (message : Bytes) (get : Bytes → Option Bytes) : Prop where
  metadata : get (lit "resource_metadata") = some url
  error : get (lit "error") = if status = 403 then some (lit "insufficient_scope") else none
  scope : get (lit "scope") = if scopes = [] then none else some ((lit " ").intercalate scopes)
  description : get (lit "error_description") = if status = 403 ∧ message ≠ [] then some message else none
  others : ∀ k, k ∉ [lit "resource_metadata", lit "error", lit "scope", lit "error_description"] → get k = none

def blankNil : Blank [] := by intro c h; cases h
def blankOne : Blank (lit " ") := by intro c h; simp [lit] at h; exact .inl h

theorem quotedParam (k v : Bytes) (hk : HdrToken k) : PText (k, v) (k ++ lit "=" ++ quote v) := by
  have := PText.quoted k v (quoteBody v) [] [] hk blankNil blankNil (quoteBody_text v)
  have e : k ++ [] ++ ('=' :: []) ++ ('"' :: quoteBody v ++ ['"']) = k ++ lit "=" ++ quote v := by simp [quote, lit]
  rw [e] at this
  exact this

/-- One more parameter after the others. -/
theorem ctext_snoc (ps : List (Bytes × Bytes)) (t : Bytes) (h : CText ps t) (p : Bytes × Bytes) (u : Bytes) (hp : PText p u) :
    CText (ps ++ [p]) (t ++ lit ", " ++ u) := by
  induction h with
  | one q t b hq hb =>
    have := CText.more q t b (lit " ") [p] u hq hb blankOne (by have := CText.one p u [] hp blankNil; rwa [List.append_nil] at this)
    have e : t ++ b ++ (',' :: lit " ") ++ u = t ++ b ++ lit ", " ++ u := rfl
    rwa [e] at this
  | more q t b b' ps r hq hb hb' _ ih =>
    have := CText.more q t b b' (ps ++ [p]) (r ++ lit ", " ++ u) hq hb hb' ih
    have e : t ++ b ++ (',' :: b') ++ (r ++ lit ", " ++ u) = t ++ b ++ (',' :: b') ++ r ++ lit ", " ++ u := by simp
    rwa [e] at this

theorem tok_error : HdrToken (lit "error") := ⟨by decide, by decide +kernel⟩
theorem tok_scope : HdrToken (lit "scope") := ⟨by decide, by decide +kernel⟩
theorem tok_description : HdrToken (lit "error_description") := ⟨by decide, by decide +kernel⟩
theorem tok_metadata : HdrToken (lit "resource_metadata") := ⟨by decide, by decide +kernel⟩
theorem tok_bearer : HdrToken (lit "Bearer") := ⟨by decide, by decide +kernel⟩

def sentParams (status : Nat) (url : Bytes) (scopes : List Bytes) (message : Bytes) : List (Bytes × Bytes) :=
  [(lit "resource_metadata", url)] ++ (if status = 403 then [(lit "error", lit "insufficient_scope")] else []) ++
    (if scopes = [] then [] else [(lit "scope", joinScopes scopes)]) ++
    (if status = 403 ∧ message ≠ [] then [(lit "error_description", message)] else [])

theorem challenge_ctext (status : Nat) (url : Bytes) (scopes : List Bytes) (message : Bytes) (hu : Bare url) :
    ∃ t, challengeFor status url scopes message = [] ++ lit "Bearer" ++ lit " " ++ t ∧ CText (sentParams status url scopes message) t := by
  have h0 : CText [(lit "resource_metadata", url)] (lit "resource_metadata=" ++ url) := by
    have := CText.one _ _ [] (PText.bare (lit "resource_metadata") url [] [] tok_metadata blankNil blankNil hu) blankNil
    have e : lit "resource_metadata" ++ [] ++ ('=' :: []) ++ url ++ [] = lit "resource_metadata=" ++ url := by simp [lit]
    rwa [e] at this
  have h1 : ∃ t, CText ([(lit "resource_metadata", url)] ++ (if status = 403 then [(lit "error", lit "insufficient_scope")] else [])) t ∧
      t = lit "resource_metadata=" ++ url ++ (if status = 403 then lit ", error=" ++ quote (lit "insufficient_scope") else []) := by
    by_cases h : status = 403
    · rw [if_pos h, if_pos h]
      refine ⟨_, ctext_snoc _ _ h0 _ _ (quotedParam _ _ tok_error), ?_⟩
      simp [lit]
    · rw [if_neg h, if_neg h, List.append_nil, List.append_nil]
      exact ⟨_, h0, rfl⟩
  obtain ⟨t1, hc1, e1⟩ := h1
  have h2 : ∃ t, CText ([(lit "resource_metadata", url)] ++ (if status = 403 then [(lit "error", lit "insufficient_scope")] else []) ++
      (if scopes = [] then [] else [(lit "scope", joinScopes scopes)])) t ∧
      t = t1 ++ (if scopes = [] then [] else lit ", scope=" ++ quote (joinScopes scopes)) := by
    by_cases h : scopes = []
    · rw [if_pos h, if_pos h, List.append_nil, List.append_nil]
      exact ⟨_, hc1, rfl⟩
    · rw [if_neg h, if_neg h]
      refine ⟨_, ctext_snoc _ _ hc1 _ _ (quotedParam _ _ tok_scope), ?_⟩
      simp [lit]
  obtain ⟨t2, hc2, e2⟩ := h2
  have h3 : ∃ t, CText (sentParams status url scopes message) t ∧
      t = t2 ++ (if status = 403 ∧ message ≠ [] then lit ", error_description=" ++ quote message else []) := by
    unfold sentParams
    by_cases h : status = 403 ∧ message ≠ []
    · rw [if_pos h, if_pos h]
      refine ⟨_, ctext_snoc _ _ hc2 _ _ (quotedParam _ _ tok_description), ?_⟩
      simp [lit]
    · rw [if_neg h, if_neg h, List.append_nil, List.append_nil]
      exact ⟨_, hc2, rfl⟩
  obtain ⟨t3, hc3, e3⟩ := h3
  refine ⟨t3, ?_, hc3⟩
  rw [e3, e2, e1]
  unfold challengeFor
  have hl : lit "Bearer resource_metadata=" = lit "Bearer" ++ lit " " ++ lit "resource_metadata=" := by decide +kernel
  rw [hl]
  by_cases h : status = 403
  · by_cases hm : message = []
    · simp [h, hm]
    · simp [h, hm]
  · simp [h]

theorem lastValue_two (a b c d : List (Bytes × Bytes)) (k : Bytes) :
    lastValue (a ++ b ++ c ++ d) k = (lastValue d k).or ((lastValue c k).or ((lastValue b k).or (lastValue a k))) := by
  unfold lastValue
  simp only [List.reverse_append, List.find?_append]
  generalize List.find? _ a.reverse = x
  generalize List.find? _ b.reverse = y
  generalize List.find? _ c.reverse = z
  generalize List.find? _ d.reverse = w
  cases w <;> cases z <;> cases y <;> rfl

theorem lastValue_one (k v k' : Bytes) : lastValue [(k, v)] k' = if k.map lowerCh = k' then some v else none := by
  rw [lastValue_cons]
  rfl

theorem sent_advertises (status : Nat) (url : Bytes) (scopes : List Bytes) (message : Bytes) :
    Advertises status url scopes message (lastValue (sentParams status url scopes message)) := by
  have l1 : (lit "resource_metadata").map lowerCh = lit "resource_metadata" := by decide +kernel
  have l2 : (lit "error").map lowerCh = lit "error" := by decide +kernel
  have l3 : (lit "scope").map lowerCh = lit "scope" := by decide +kernel
  have l4 : (lit "error_description").map lowerCh = lit "error_description" := by decide +kernel
  have key : ∀ k, lastValue (sentParams status url scopes message) k =
      (if status = 403 ∧ message ≠ [] then (if lit "error_description" = k then some message else none) else none).or
      ((if scopes = [] then none else (if lit "scope" = k then some ((lit " ").intercalate scopes) else none)).or
      ((if status = 403 then (if lit "error" = k then some (lit "insufficient_scope") else none) else none).or
      (if lit "resource_metadata" = k then some url else none))) := by
    intro k
    unfold sentParams
    rw [lastValue_two, lastValue_one, l1]
    congr 1
    · split
      · rw [lastValue_one, l4]
      · rfl
    · congr 1
      · split
        · rfl
        · rw [lastValue_one, l3, joinScopes_eq]
      · congr 1
        split
        · rw [lastValue_one, l2]
        · rfl
  have n12 : ¬ lit "error" = lit "resource_metadata" := by decide
  have n13 : ¬ lit "scope" = lit "resource_metadata" := by decide
  have n14 : ¬ lit "error_description" = lit "resource_metadata" := by decide
  have n21 : ¬ lit "resource_metadata" = lit "error" := by decide
  have n23 : ¬ lit "scope" = lit "error" := by decide
  have n24 : ¬ lit "error_description" = lit "error" := by decide
  have n31 : ¬ lit "resource_metadata" = lit "scope" := by decide
  have n32 : ¬ lit "error" = lit "scope" := by decide
  have n34 : ¬ lit "error_description" = lit "scope" := by decide
  have n41 : ¬ lit "resource_metadata" = lit "error_description" := by decide
  have n42 : ¬ lit "error" = lit "error_description" := by decide
  have n43 : ¬ lit "scope" = lit "error_description" := by decide
  refine ⟨?_, ?_, ?_, ?_, fun k hk => ?_⟩
  · rw [key]; simp [n12, n13, n14]
  · rw [key]; simp [n21, n23, n24]
  · rw [key]; simp [n31, n32, n34]
  · rw [key]; simp [n41, n42, n43]
  · simp only [List.mem_cons, List.not_mem_nil, or_false, not_or] at hk
    rw [key]
    have k1 : ¬ lit "resource_metadata" = k := fun e => hk.1 e.symm
    have k2 : ¬ lit "error" = k := fun e => hk.2.1 e.symm
    have k3 : ¬ lit "scope" = k := fun e => hk.2.2.1 e.symm
    have k4 : ¬ lit "error_description" = k := fun e => hk.2.2.2 e.symm
    simp [k1, k2, k3, k4]

/-- **C48.** The client's parser reads from the header of the server exactly what the server means to tell. Missing: addresses of the
metadata that contain a comma (or start with a quote, or have blanks at an end), which the server writes without quotes. -/
theorem C48_server_partial (status : Nat) (url : Bytes) (scopes : List Bytes) (message : Bytes) (hu : Bare url) :
    ∃ m, (∀ fuel, (challengeFor status url scopes message).length < fuel →
        parseChallenge fuel (challengeFor status url scopes message) = some (some m)) ∧
      Advertises status url scopes message (AMap.get m) := by
  obtain ⟨t, he, hc⟩ := challenge_ctext status url scopes message hu
  obtain ⟨m, hm, hg⟩ := C48_parses [] (lit " ") (lit "Bearer") _ t blankNil blankOne (by decide) (by decide +kernel) tok_bearer hc
  refine ⟨m, ?_, ?_⟩
  · rw [he]; exact hm
  · have : AMap.get m = lastValue (sentParams status url scopes message) := funext hg
    rw [this]
    exact sent_advertises status url scopes message

example : Bare (lit "https://mcp.example.com/.well-known/oauth-protected-resource") :=
  ⟨by decide +kernel, fun c h => by cases h; decide, fun c h => by cases h; decide⟩

/-- **C48, false for an address with a comma** (which a URL may contain): whatever comes before and after, the client sees the address cut
at the comma. -/
theorem C48_comma_counterexample (a b : Bytes) (status : Nat) (hs : status ≠ 403) (message : Bytes) (ha : Bare a) (hb : HdrToken b)
    (hbn : b.map lowerCh ≠ lit "resource_metadata") :
    ∃ m, (∀ fuel, (challengeFor status (a ++ ',' :: b) [] message).length < fuel →
        parseChallenge fuel (challengeFor status (a ++ ',' :: b) [] message) = some (some m)) ∧
      AMap.get m (lit "resource_metadata") = some a ∧ ¬ Advertises status (a ++ ',' :: b) [] message (AMap.get m) := by
  have hh : challengeFor status (a ++ ',' :: b) [] message = lit "Bearer resource_metadata=" ++ (a ++ ',' :: b) := by
    simp [challengeFor, hs]
  have hp : PText (lit "resource_metadata", a) (lit "resource_metadata" ++ [] ++ ('=' :: []) ++ a) :=
    .bare (lit "resource_metadata") a [] [] tok_metadata blankNil blankNil ha
  obtain ⟨c, r, hbe, h1, h2, h3⟩ := hdrToken_cons b hb
  have hhead : lit "Bearer resource_metadata=" ++ (a ++ ',' :: b) = lit "Bearer" ++ (lit " " ++
      (lit "resource_metadata" ++ [] ++ ('=' :: []) ++ a ++ ([] ++ ',' :: b))) := by
    simp [lit]
  let m := AMap.put (AMap.put ([] : List (Bytes × Bytes)) (lit "resource_metadata") a) (b.map lowerCh) []
  have hr1 : round (lit "resource_metadata" ++ [] ++ ('=' :: []) ++ a ++ ([] ++ ',' :: b)) =
      .param (lit "resource_metadata") a (',' :: b) := by
    have := round_param _ _ [] (',' :: b) (lit "resource_metadata" ++ [] ++ ('=' :: []) ++ a ++ ([] ++ ',' :: b)) hp
      ⟨blankNil, .inr ⟨b, rfl⟩⟩ (skipSeparator_start 'r' _ (by decide) (by decide) (by decide))
    have l1 : (lit "resource_metadata").map lowerCh = lit "resource_metadata" := by decide +kernel
    rw [l1] at this
    exact this
  have hr2 : round (',' :: b) = .param (b.map lowerCh) [] [] := by
    have hsep : skipSeparator (',' :: b) = b := by
      show skipBlanks (skipBlanks b) = b
      rw [hbe, skipBlanks_stop c r h1 h2, skipBlanks_stop c r h1 h2]
    have ht : parseToken b = (b, []) := by
      have := parseToken_app b [] hb.2 (.inl rfl)
      rwa [List.append_nil] at this
    unfold round
    simp only [hsep, ht, if_neg hb.1]
    rfl
  have hrun : ∀ f, parseChallenge (f + 3) (lit "Bearer resource_metadata=" ++ (a ++ ',' :: b)) = some (some m) := by
    intro f
    unfold parseChallenge
    have hskip : skipBlanks (lit "Bearer resource_metadata=" ++ (a ++ ',' :: b)) = lit "Bearer resource_metadata=" ++ (a ++ ',' :: b) :=
      skipBlanks_stop 'B' _ (by decide) (by decide)
    simp only [hskip]
    have hst : Stops (lit " " ++ (lit "resource_metadata" ++ [] ++ ('=' :: []) ++ a ++ ([] ++ ',' :: b))) := .inr ⟨' ', _, rfl, rfl⟩
    rw [hhead, parseToken_app (lit "Bearer") _ tok_bearer.2 hst]
    have hlow : ¬ lowerKey (lit "Bearer") ≠ lit "bearer" := by decide +kernel
    simp only
    rw [if_neg tok_bearer.1, if_neg hlow, skipBlanks_blank (lit " ") _ blankOne]
    have hsk : skipBlanks (lit "resource_metadata" ++ [] ++ ('=' :: []) ++ a ++ ([] ++ ',' :: b)) =
        lit "resource_metadata" ++ [] ++ ('=' :: []) ++ a ++ ([] ++ ',' :: b) := skipBlanks_stop 'r' _ (by decide) (by decide)
    rw [hsk]
    simp only [params]
    rw [if_neg (by simp [lit]), hr1]
    simp only
    rw [if_neg (by simp), hr2]
    rfl
  have hget : AMap.get m (lit "resource_metadata") = some a := by
    show AMap.get (AMap.put _ _ _) _ = _
    rw [AMap.get_put, if_neg (fun e => hbn e.symm), AMap.get_put, if_pos rfl]
  refine ⟨m, fun fuel hf => ?_, hget, fun h => ?_⟩
  · rw [hh] at hf ⊢
    have hlen : 3 ≤ (lit "Bearer resource_metadata=" ++ (a ++ ',' :: b)).length := by
      rw [List.length_append]
      have : (lit "Bearer resource_metadata=").length = 25 := by decide +kernel
      omega
    obtain ⟨f, rfl⟩ : ∃ f, fuel = f + 3 := ⟨fuel - 3, by omega⟩
    exact hrun f
  · have := h.metadata
    rw [hget] at this
    have hl := congrArg List.length (Option.some.inj this)
    simp at hl

example : Bare (lit "https://mcp.example.com/a") ∧ HdrToken (lit "b") ∧ (lit "b").map lowerCh ≠ lit "resource_metadata" :=
  ⟨⟨by decide +kernel, fun c h => by cases h; decide, fun c h => by cases h; decide⟩, ⟨by decide, by decide +kernel⟩, by decide +kernel⟩

end Verif
