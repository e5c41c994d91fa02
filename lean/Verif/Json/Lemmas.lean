import Verif.Base.Lemmas
import Verif.Json.Model

/-! Helper lemmas about the JSON model. -/

namespace Verif

theorem hex4_low (n : Nat) (h : n < 32) :
    hex4 '0' '0' (hexDigit (n / 16)) (hexDigit (n % 16)) = some n := by
  have : ∀ m : Fin 32, hex4 '0' '0' (hexDigit (m.val / 16)) (hexDigit (m.val % 16)) = some m.val := by decide
  exact this ⟨n, h⟩

theorem Char.ofNat_toNat' (c : Char) : Char.ofNat c.toNat = c := by simp

theorem strBody_quote (t : Bytes) : strBody ('"' :: t) = .ok [] t := by
  rw [strBody.eq_def]; simp

theorem strBody_other {c : Char} (h1 : c ≠ '"') (h2 : c ≠ '\\') (t : Bytes) :
    strBody (c :: t) = (strBody t).map (c :: ·) := by
  rw [strBody.eq_def]; simp [h1, h2]

theorem strBody_esc {e ch : Char} (h1 : e ≠ 'u') (h2 : simpleEsc e = some ch) (t : Bytes) :
    strBody ('\\' :: e :: t) = (strBody t).map (ch :: ·) := by
  rw [strBody.eq_def]; simp [h1, h2]

theorem strBody_u {a b c d : Char} {code : Nat} (h : hex4 a b c d = some code) (t : Bytes) :
    strBody ('\\' :: 'u' :: a :: b :: c :: d :: t) = (strBody t).map (utf8 code ++ ·) := by
  rw [strBody.eq_def]; simp [h]

theorem strBody_escCh (c : Char) (t : Bytes) :
    strBody (escCh c ++ t) = (strBody t).map (c :: ·) := by
  unfold escCh
  split
  · next h => subst h; exact strBody_esc (by decide) (by decide) t
  split
  · next h => subst h; exact strBody_esc (by decide) (by decide) t
  split
  · next h =>
    have hc : c = Char.ofNat 8 := by rw [← h]; simp
    subst hc; exact strBody_esc (by decide) (by decide) t
  split
  · next h =>
    have hc : c = Char.ofNat 12 := by rw [← h]; simp
    subst hc; exact strBody_esc (by decide) (by decide) t
  split
  · next h => subst h; exact strBody_esc (by decide) (by decide) t
  split
  · next h => subst h; exact strBody_esc (by decide) (by decide) t
  split
  · next h => subst h; exact strBody_esc (by decide) (by decide) t
  split
  · next h =>
    have h2 := hex4_low c.toNat h
    have h3 : utf8 c.toNat = [c] := by
      unfold utf8; rw [if_pos (by omega)]; simp
    have := strBody_u h2 t
    rw [h3] at this
    exact this
  · next h1 h2 _ _ _ _ _ _ => exact strBody_other h1 h2 t

theorem PR.map_map {α β γ : Type} (f : α → β) (g : β → γ) (p : PR α) : (p.map f).map g = p.map (g ∘ f) := by
  cases p <;> rfl

theorem strBody_escStr (s rest : Bytes) : strBody (escStr s ++ '"' :: rest) = .ok s rest := by
  induction s with
  | nil => exact strBody_quote rest
  | cons c cs ih =>
    rw [escStr, List.append_assoc, strBody_escCh, ih]; rfl

/-- Raw text without quote or backslash reads back as itself. -/
theorem strBody_plain (s rest : Bytes) (h : ∀ c ∈ s, c ≠ '"' ∧ c ≠ '\\') :
    strBody (s ++ '"' :: rest) = .ok s rest := by
  induction s with
  | nil => exact strBody_quote rest
  | cons c cs ih =>
    have hc := h c (by simp)
    rw [List.cons_append]
    rw [strBody_other hc.1 hc.2, ih (fun x hx => h x (by simp [hx]))]
    rfl

theorem skipWs_cons {c : Char} {cs : Bytes} (h : isWs c = false) : skipWs (c :: cs) = c :: cs := by
  simp [skipWs, h]

theorem skipWs_idem (s : Bytes) : skipWs (skipWs s) = skipWs s := by
  induction s with
  | nil => rfl
  | cons c cs ih =>
    by_cases h : isWs c = true
    · simp [skipWs, h, ih]
    · simp [skipWs, h]

theorem takeDigits_append {ds : Bytes} (h : ∀ c ∈ ds, isDig c = true) (rest : Bytes)
    (hr : ∀ c ∈ rest.head?, isDig c = false) : takeDigits (ds ++ rest) = (ds, rest) := by
  induction ds with
  | nil =>
    cases rest with
    | nil => rfl
    | cons c cs => simp [takeDigits, hr c (by simp)]
  | cons d ds ih =>
    have := ih (fun c hc => h c (by simp [hc]))
    simp [takeDigits, h d (by simp), this]

/-- Text after which a number ends: no digit, point or exponent mark follows. -/
def NumStop (rest : Bytes) : Prop :=
  ∀ c ∈ rest.head?, isDig c = false ∧ c ≠ '.' ∧ c ≠ 'e' ∧ c ≠ 'E'

theorem takeFrac_none {s : Bytes} (h : ∀ c ∈ s.head?, c ≠ '.') : takeFrac s = (false, [], s) := by
  unfold takeFrac
  split
  · simp at h
  · rfl

theorem takeExp_none {s : Bytes} (h : ∀ c ∈ s.head?, c ≠ 'e' ∧ c ≠ 'E') : takeExp s = (false, [], s) := by
  cases s with
  | nil => rfl
  | cons c cs =>
    have := h c (by simp)
    simp [takeExp, this.1, this.2]

theorem takeSign_dig {c : Char} {cs : Bytes} (h : isDig c = true) : takeSign (c :: cs) = ([], c :: cs) := by
  rw [takeSign, if_neg]
  rintro (rfl | rfl) <;> revert h <;> decide

theorem stollSigned_pos (n : Nat) (h : Int64OK (n : Int)) : stollSigned [] (natDec n) = some (n : Int) := by
  simp only [stollSigned, natDec_ne_nil, digitsVal_natDec, if_false]
  simp [h]

theorem stollSigned_neg (n : Nat) (h : Int64OK (-(n : Int))) : stollSigned ['-'] (natDec n) = some (-(n : Int)) := by
  simp only [stollSigned, natDec_ne_nil, digitsVal_natDec, if_false]
  simp [h]

variable {D : Type} [DblFmt D]

theorem parseNumber_int (i : Int) (h : Int64OK i) (rest : Bytes) (hr : NumStop rest) :
    parseNumber (D := D) (intDec i ++ rest) = (.int i, rest) := by
  have hr1 : ∀ c ∈ rest.head?, isDig c = false := fun c hc => (hr c hc).1
  have hr2 : ∀ c ∈ rest.head?, c ≠ '.' := fun c hc => (hr c hc).2.1
  have hr3 : ∀ c ∈ rest.head?, c ≠ 'e' ∧ c ≠ 'E' := fun c hc => (hr c hc).2.2
  cases i with
  | ofNat n =>
    have hd : ∀ c ∈ natDec n, isDig c = true := fun c hc => natDec_isDig hc
    have hs : takeSign (natDec n ++ rest) = ([], natDec n ++ rest) := by
      cases hn : natDec n with
      | nil => exact absurd hn (natDec_ne_nil n)
      | cons c cs => exact takeSign_dig (hd c (by simp [hn]))
    have ht := takeDigits_append hd rest hr1
    unfold parseNumber
    simp only [intDec, hs, ht, takeFrac_none hr2, takeExp_none hr3, and_self, if_true]
    rw [stollSigned_pos n h]
    rfl
  | negSucc n =>
    have hd : ∀ c ∈ natDec (n+1), isDig c = true := fun c hc => natDec_isDig hc
    have hs : takeSign ('-' :: (natDec (n+1) ++ rest)) = (['-'], natDec (n+1) ++ rest) := by
      simp [takeSign]
    have ht := takeDigits_append hd rest hr1
    unfold parseNumber
    simp only [intDec, List.cons_append, hs, ht, takeFrac_none hr2, takeExp_none hr3, and_self, if_true]
    have : (-((n + 1 : Nat) : Int)) = Int.negSucc n := by omega
    rw [stollSigned_neg (n+1) (by rw [this]; exact h), this]

/-- A double whose printed form (six decimals) is read back as the same double. -/
def DblOK (d : D) : Prop :=
  (∃ sg ip fp : Bytes, DblFmt.print d = sg ++ ip ++ '.' :: fp ∧ (sg = [] ∨ sg = ['-']) ∧ ip ≠ [] ∧
      (∀ c ∈ ip, isDig c = true) ∧ (∀ c ∈ fp, isDig c = true)) ∧
  DblFmt.parse (DblFmt.print d) = some d

theorem parseNumber_dbl (d : D) (h : DblOK d) (rest : Bytes) (hr : NumStop rest) :
    parseNumber (D := D) (DblFmt.print d ++ rest) = (.dbl d, rest) := by
  obtain ⟨⟨sg, ip, fp, hp, hsg, hip, hip', hfp⟩, hrt⟩ := h
  have hr1 : ∀ c ∈ rest.head?, isDig c = false := fun c hc => (hr c hc).1
  have hr3 : ∀ c ∈ rest.head?, c ≠ 'e' ∧ c ≠ 'E' := fun c hc => (hr c hc).2.2
  have hs : takeSign (DblFmt.print d ++ rest) = (sg, ip ++ '.' :: (fp ++ rest)) := by
    rw [hp]
    rcases hsg with rfl | rfl
    · cases ip with
      | nil => exact absurd rfl hip
      | cons c cs => simpa using takeSign_dig (hip' c (by simp))
    · simp [takeSign]
  have ht : takeDigits (ip ++ '.' :: (fp ++ rest)) = (ip, '.' :: (fp ++ rest)) :=
    takeDigits_append hip' _ (by intro c hc; simp at hc; subst hc; decide)
  have hf : takeFrac ('.' :: (fp ++ rest)) = (true, '.' :: fp, rest) := by
    simp [takeFrac, takeDigits_append hfp rest hr1]
  unfold parseNumber
  simp only [hs, ht, hf, takeExp_none hr3]
  rw [if_neg (by simp)]
  have : sg ++ ip ++ '.' :: fp ++ [] = DblFmt.print d := by rw [hp]; simp
  rw [this, hrt]

/-! ### Suffixes -/

theorem skipWs_suffix (s : Bytes) : skipWs s <:+ s := by
  induction s with
  | nil => exact List.suffix_rfl
  | cons c cs ih =>
    unfold skipWs
    split
    · exact List.IsSuffix.trans ih (List.suffix_cons c cs)
    · exact List.suffix_rfl

theorem PR.map_ok {α β : Type} {f : α → β} {p : PR α} {b : β} {r : Bytes} (h : p.map f = .ok b r) :
    ∃ a, p = .ok a r ∧ f a = b := by
  cases p with
  | ok a r' => simp [PR.map] at h; exact ⟨a, by simp [h.2], h.1⟩
  | throw => simp [PR.map] at h
  | fuel => simp [PR.map] at h

theorem strBody_suffix (s : Bytes) : ∀ {t r}, strBody s = .ok t r → r <:+ s := by
  fun_induction strBody s with
  | case1 => intro t r h; simp at h; simp [h.2]
  | case2 rest => intro t r h; simp at h; rw [← h.2]; exact List.suffix_cons _ _
  | case3 => intro t r h; simp at h
  | case4 => intro t r h; simp_all
  | case5 a b c' d rest code hx _ ih =>
    intro t r h
    obtain ⟨a', h', _⟩ := PR.map_ok h
    exact List.IsSuffix.trans (ih h') ⟨['\\', 'u', a, b, c', d], by simp⟩
  | case6 => intro t r h; simp_all
  | case7 => intro t r h; simp_all
  | case8 e rest' _ ch _ _ ih =>
    intro t r h
    obtain ⟨a', h', _⟩ := PR.map_ok h
    exact List.IsSuffix.trans (ih h') ⟨['\\', e], by simp⟩
  | case9 c rest h1 h2 ih =>
    intro t r h
    obtain ⟨a', h', _⟩ := PR.map_ok h
    exact List.IsSuffix.trans (ih h') (List.suffix_cons _ _)

theorem strBody_ne_fuel (s : Bytes) : strBody s ≠ .fuel := by
  fun_induction strBody s <;> simp_all
  all_goals
    intro h
    first
      | (rename_i ih; revert h; unfold PR.map; split <;> simp_all)

end Verif
