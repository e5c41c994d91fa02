import Verif.Auth.Form
import Verif.Base.Lemmas

/-!
# C49: the token request body says exactly what was configured

The decoder below is the parser of `application/x-www-form-urlencoded` of the URL standard (section 5.1):
split at `&`, drop empty pieces, split each at its first `=`, turn `+` into a space and then percent-decode.
It is written here from the standard, and knows nothing of the encoder.
-/

namespace Verif
open Auth

/-- A byte of a `std::string`. -/
def IsByte (c : Char) : Prop := c.toNat < 256

/-- The value of a hex digit of either case. -/
def pctDigit (c : Char) : Option Nat :=
  if 48 ≤ c.toNat ∧ c.toNat ≤ 57 then some (c.toNat - 48)
  else if 65 ≤ c.toNat ∧ c.toNat ≤ 70 then some (c.toNat - 55)
  else if 97 ≤ c.toNat ∧ c.toNat ≤ 102 then some (c.toNat - 87)
  else none

/-- Percent-decoding, URL standard section 1.3: `%` and two hex digits is one byte, anything else is itself. -/
def pctDecode : Bytes → Bytes
  | [] => []
  | [a] => [a]
  | [a, b] => [a, b]
  | a :: b :: c :: r =>
    if a = '%' then
      match pctDigit b, pctDigit c with
      | some x, some y => Char.ofNat (16 * x + y) :: pctDecode r
      | _, _ => a :: pctDecode (b :: c :: r)
    else a :: pctDecode (b :: c :: r)

/-- Name or value of a pair: `+` is a space, then percent-decoding. -/
def formText (s : Bytes) : Bytes := pctDecode (s.map (fun c => if c = '+' then ' ' else c))

/-- The pieces of a text between the `&`s. -/
def pieces : Bytes → List Bytes
  | [] => [[]]
  | c :: s =>
    if c = '&' then [] :: pieces s
    else
      match pieces s with
      | [] => [[c]]
      | p :: ps => (c :: p) :: ps

/-- One piece as a name and a value. -/
def formPair (p : Bytes) : Bytes × Bytes :=
  (formText (p.takeWhile (fun c => decide (c ≠ '='))), formText ((p.dropWhile (fun c => decide (c ≠ '='))).drop 1))

/-- The `application/x-www-form-urlencoded` parser. -/
def formParse (body : Bytes) : List (Bytes × Bytes) :=
  ((pieces body).filter (fun p => decide (p ≠ []))).map formPair

/-- What the endpoint must read for one configured text: the pair, or nothing for an empty text. -/
def Given (name v : Bytes) : List (Bytes × Bytes) := if v = [] then [] else [(name, v)]

private theorem char_lt (c : Char) (h : IsByte c) : ∃ n : Fin 256, c = Char.ofNat n.val :=
  ⟨⟨c.toNat, h⟩, (Char.ofNat_toNat c).symm⟩

private theorem enc_facts : ∀ n : Fin 256,
    (∀ x ∈ formCh (Char.ofNat n.val), x ≠ '&' ∧ x ≠ '=') ∧
    (formKept (Char.ofNat n.val) = true → Char.ofNat n.val ≠ '%' ∧ Char.ofNat n.val ≠ '+') ∧
    pctDigit (hexUp ((Char.ofNat n.val).toNat / 16 % 16)) = some ((Char.ofNat n.val).toNat / 16) ∧
    pctDigit (hexUp ((Char.ofNat n.val).toNat % 16)) = some ((Char.ofNat n.val).toNat % 16) ∧
    hexUp ((Char.ofNat n.val).toNat / 16 % 16) ≠ '+' ∧ hexUp ((Char.ofNat n.val).toNat % 16) ≠ '+' := by
  decide +kernel

private theorem enc_plain (s : Bytes) (hs : ∀ c ∈ s, IsByte c) : ∀ x ∈ urlEncodeForm s, x ≠ '&' ∧ x ≠ '=' := by
  intro x hx
  obtain ⟨c, hc, hx⟩ := List.mem_flatMap.1 hx
  obtain ⟨n, rfl⟩ := char_lt c (hs c hc)
  exact (enc_facts n).1 x hx

private theorem pct_other (a : Char) (s : Bytes) (h : a ≠ '%') : pctDecode (a :: s) = a :: pctDecode s := by
  match s with
  | [] => rfl
  | [b] => rfl
  | b :: c :: r => simp [pctDecode, h]

private theorem formText_enc (s : Bytes) (hs : ∀ c ∈ s, IsByte c) : formText (urlEncodeForm s) = s := by
  induction s with
  | nil => rfl
  | cons c s ih =>
    have ih := ih (fun x hx => hs x (List.mem_cons_of_mem _ hx))
    obtain ⟨n, hn⟩ := char_lt c (hs c List.mem_cons_self)
    have hf := enc_facts n
    rw [← hn] at hf
    have hu : urlEncodeForm (c :: s) = formCh c ++ urlEncodeForm s := rfl
    unfold formText at ih ⊢
    rw [hu, List.map_append]
    unfold formCh
    by_cases hk : formKept c = true
    · have := hf.2.1 hk
      simp only [hk, if_true, List.map_cons, List.map_nil, if_neg this.2, List.cons_append, List.nil_append]
      rw [pct_other _ _ this.1, ih]
    · simp only [hk]
      by_cases hsp : c = ' '
      · subst hsp
        simp only [if_true, List.map_cons, List.map_nil, List.cons_append, List.nil_append, Bool.false_eq_true, if_false]
        rw [pct_other _ _ (by decide), ih]
      · simp only [hsp, if_false, List.map_cons, List.map_nil, List.cons_append, List.nil_append, Bool.false_eq_true,
          if_neg hf.2.2.2.2.1, if_neg hf.2.2.2.2.2]
        rw [if_neg (by decide)]
        simp only [pctDecode, if_true, hf.2.2.1, hf.2.2.2.1]
        rw [ih]
        have : 16 * (c.toNat / 16) + c.toNat % 16 = c.toNat := by omega
        rw [this, Char.ofNat_toNat]

private theorem pieces_ne (s : Bytes) : pieces s ≠ [] := by
  cases s with
  | nil => simp [pieces]
  | cons c s =>
    unfold pieces
    split
    · simp
    · split <;> simp

private theorem pieces_plain (a : Bytes) (h : '&' ∉ a) : pieces a = [a] := by
  induction a with
  | nil => rfl
  | cons c a ih =>
    simp only [List.mem_cons, not_or] at h
    unfold pieces
    rw [if_neg (fun e => h.1 e.symm), ih h.2]

private theorem pieces_at (a b : Bytes) (h : '&' ∉ a) : pieces (a ++ '&' :: b) = a :: pieces b := by
  induction a with
  | nil => simp [pieces]
  | cons c a ih =>
    simp only [List.mem_cons, not_or] at h
    show pieces (c :: (a ++ '&' :: b)) = _
    rw [pieces, if_neg (fun e => h.1 e.symm), ih h.2]

/-- The pieces of a text followed by an optional field. -/
private theorem parse_field (a rest : Bytes) (ha : '&' ∉ a) (hne : a ≠ []) (hr : rest = [] ∨ ∃ y, rest = '&' :: y) :
    formParse (a ++ rest) = formPair a :: formParse (rest.drop 1) := by
  rcases hr with h | ⟨y, h⟩
  · subst h
    simp [formParse, pieces_plain a ha, hne, pieces]
  · subst h
    unfold formParse
    rw [pieces_at a y ha]
    simp [hne]

private theorem pair_enc (name v : Bytes) (hn : ∀ c ∈ name, c ≠ '=' ∧ c ≠ '+' ∧ c ≠ '%') (hv : ∀ c ∈ v, IsByte c) :
    formPair (name ++ '=' :: urlEncodeForm v) = (name, v) := by
  have ht : (name ++ '=' :: urlEncodeForm v).takeWhile (fun c => decide (c ≠ '=')) = name := by
    rw [List.takeWhile_append_of_pos (by intro c hc; simpa using (hn c hc).1)]
    simp
  have hd : (name ++ '=' :: urlEncodeForm v).dropWhile (fun c => decide (c ≠ '=')) = '=' :: urlEncodeForm v := by
    rw [List.dropWhile_append_of_pos (by intro c hc; simpa using (hn c hc).1)]
    simp
  have hname : formText name = name := by
    unfold formText
    clear ht hd
    induction name with
    | nil => rfl
    | cons c name ih =>
      have hc := hn c List.mem_cons_self
      simp only [List.map_cons, if_neg hc.2.1]
      rw [pct_other _ _ hc.2.2, ih (fun x hx => hn x (List.mem_cons_of_mem _ hx))]
  unfold formPair
  rw [ht, hd, hname, List.drop_one, List.tail_cons, formText_enc v hv]

private theorem field_form (name v : Bytes) : formField name v = [] ∨ ∃ y, formField name v = '&' :: y := by
  unfold formField
  split
  · exact Or.inl rfl
  · exact Or.inr ⟨_, rfl⟩

private theorem tail_form (n₁ v₁ rest : Bytes) (h : rest = [] ∨ ∃ y, rest = '&' :: y) :
    (formField n₁ v₁ ++ rest = [] ∨ ∃ y, formField n₁ v₁ ++ rest = '&' :: y) := by
  rcases field_form n₁ v₁ with h1 | ⟨y, h1⟩
  · rw [h1]; simpa using h
  · rw [h1]; exact Or.inr ⟨_, rfl⟩

private theorem parse_fields (name v rest : Bytes) (hn : ∀ c ∈ name, c ≠ '=' ∧ c ≠ '+' ∧ c ≠ '%' ∧ c ≠ '&')
    (hv : ∀ c ∈ v, IsByte c) (h : rest = [] ∨ ∃ y, rest = '&' :: y) :
    formParse ((formField name v ++ rest).drop 1) = Given name v ++ formParse (rest.drop 1) := by
  unfold formField Given
  by_cases hz : v = []
  · simp [hz]
  · simp only [if_neg hz]
    show formParse ((name ++ '=' :: urlEncodeForm v) ++ rest) = _
    rw [parse_field (name ++ '=' :: urlEncodeForm v) rest ?_ (by simp) h,
      pair_enc name v (fun c hc => ⟨(hn c hc).1, (hn c hc).2.1, (hn c hc).2.2.1⟩) hv]
    · rfl
    · intro hm
      rcases List.mem_append.1 hm with hm | hm
      · exact (hn _ hm).2.2.2 rfl
      · rcases List.mem_cons.1 hm with hm | hm
        · exact absurd hm (by decide)
        · exact (enc_plain v hv _ hm).1 rfl

/-- **C49.** Whatever bytes the client id, the client secret and the scope consist of — `&`, `=`, `%`, `+`,
spaces, control characters, bytes of UTF-8 — the token endpoint reading the body by the rules of the URL standard
gets the grant type, then exactly the configured texts, each under its own name and in this order. An empty text
is not sent. -/
theorem C49_form (c : Credentials) (hi : ∀ x ∈ c.clientId, IsByte x) (hs : ∀ x ∈ c.clientSecret, IsByte x)
    (hc : ∀ x ∈ c.scope, IsByte x) :
    formParse (tokenForm c) =
      (lit "grant_type", lit "client_credentials") ::
        (Given (lit "client_id") c.clientId ++ Given (lit "client_secret") c.clientSecret ++ Given (lit "scope") c.scope) := by
  have h3 : formField (lit "scope") c.scope = [] ∨ ∃ y, formField (lit "scope") c.scope = '&' :: y := field_form _ _
  have h3' : formField (lit "scope") c.scope ++ [] = [] ∨ ∃ y, formField (lit "scope") c.scope ++ [] = '&' :: y := by
    simpa using h3
  have h2 := tail_form (lit "client_secret") c.clientSecret _ h3'
  have h1 := tail_form (lit "client_id") c.clientId _ h2
  have e : tokenForm c = lit "grant_type=client_credentials" ++ (formField (lit "client_id") c.clientId ++
      (formField (lit "client_secret") c.clientSecret ++ (formField (lit "scope") c.scope ++ []))) := by
    simp [tokenForm]
  rw [e, parse_field _ _ (by decide) (by decide) h1,
    parse_fields _ _ _ (by decide) hi h2, parse_fields _ _ _ (by decide) hs h3',
    parse_fields _ _ _ (by decide) hc (Or.inl rfl)]
  have g : formPair (lit "grant_type=client_credentials") = (lit "grant_type", lit "client_credentials") := by
    decide +kernel
  rw [g]
  simp [formParse, pieces]

/-- Credentials with every character that has a meaning in a form. -/
def oddCreds : Credentials := ⟨lit "a&b=c", lit "p+q%41 r", []⟩

example : (∀ x ∈ oddCreds.clientId, IsByte x) ∧ (∀ x ∈ oddCreds.clientSecret, IsByte x) ∧
    formParse (tokenForm oddCreds) =
      [(lit "grant_type", lit "client_credentials"), (lit "client_id", lit "a&b=c"), (lit "client_secret", lit "p+q%41 r")] := by
  refine ⟨?_, ?_, ?_⟩
  · show ∀ x ∈ lit "a&b=c", x.toNat < 256
    decide +kernel
  · show ∀ x ∈ lit "p+q%41 r", x.toNat < 256
    decide +kernel
  · decide +kernel

private theorem given_inj {n₁ n₂ n₃ a₁ a₂ a₃ b₁ b₂ b₃ : Bytes} (h12 : n₁ ≠ n₂) (h13 : n₁ ≠ n₃) (h23 : n₂ ≠ n₃)
    (h : Given n₁ a₁ ++ Given n₂ a₂ ++ Given n₃ a₃ = Given n₁ b₁ ++ Given n₂ b₂ ++ Given n₃ b₃) :
    a₁ = b₁ ∧ a₂ = b₂ ∧ a₃ = b₃ := by
  unfold Given at h
  have h21 := Ne.symm h12
  have h31 := Ne.symm h13
  have h32 := Ne.symm h23
  by_cases x1 : a₁ = [] <;> by_cases x2 : a₂ = [] <;> by_cases x3 : a₃ = [] <;>
    by_cases y1 : b₁ = [] <;> by_cases y2 : b₂ = [] <;> by_cases y3 : b₃ = [] <;>
    simp_all

/-- **C49**, no two configurations send the same body. -/
theorem C49_injective (c d : Credentials)
    (hc : ∀ x ∈ c.clientId ++ c.clientSecret ++ c.scope, IsByte x)
    (hd : ∀ x ∈ d.clientId ++ d.clientSecret ++ d.scope, IsByte x) (h : tokenForm c = tokenForm d) : c = d := by
  have h1 := C49_form c (fun x hx => hc x (by simp [hx])) (fun x hx => hc x (by simp [hx])) (fun x hx => hc x (by simp [hx]))
  have h2 := C49_form d (fun x hx => hd x (by simp [hx])) (fun x hx => hd x (by simp [hx])) (fun x hx => hd x (by simp [hx]))
  rw [h, h2] at h1
  have h1 := (List.cons.inj h1).2
  have := given_inj (by decide) (by decide) (by decide) h1
  cases c; cases d
  simp_all

/-- Only characters that need no quoting in a request body are sent: printable ASCII without quotes. -/
theorem C49_ascii (s : Bytes) (hs : ∀ c ∈ s, IsByte c) :
    ∀ x ∈ urlEncodeForm s, 0x20 < x.toNat ∧ x.toNat < 0x7f := by
  have key : ∀ n : Fin 256, ∀ x ∈ formCh (Char.ofNat n.val), 0x20 < x.toNat ∧ x.toNat < 0x7f := by decide +kernel
  intro x hx
  obtain ⟨c, hc, hx⟩ := List.mem_flatMap.1 hx
  obtain ⟨n, rfl⟩ := char_lt c (hs c hc)
  exact key n x hx

example : ∃ s : Bytes, (∀ c ∈ s, IsByte c) ∧ urlEncodeForm s = lit "%C3%A9+%26" := by
  refine ⟨[Char.ofNat 0xc3, Char.ofNat 0xa9, ' ', '&'], ?_, by decide +kernel⟩
  show ∀ c ∈ [Char.ofNat 0xc3, Char.ofNat 0xa9, ' ', '&'], c.toNat < 256
  decide

end Verif
