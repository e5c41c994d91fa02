import Verif.Base.Bytes

/-! Helper lemmas about byte strings. -/

namespace Verif

theorem isDig_eq (c : Char) : isDig c = c.isDigit := by
  simp only [isDig, Char.isDigit, Bool.decide_and]
  congr 1

theorem digitsVal_eq (ds : Bytes) : digitsVal ds = Nat.ofDigitChars 10 ds 0 := by
  unfold digitsVal Nat.ofDigitChars digVal
  congr 1
  funext a c
  rw [Nat.mul_comm]

theorem natDec_ne_nil (n : Nat) : natDec n ≠ [] := Nat.toDigits_ne_nil

theorem natDec_isDig {n : Nat} {c : Char} (h : c ∈ natDec n) : isDig c = true := by
  rw [isDig_eq]
  exact Nat.isDigit_of_mem_toDigits (by decide) (by decide) h

theorem digitsVal_natDec (n : Nat) : digitsVal (natDec n) = n := by
  rw [digitsVal_eq]
  exact Nat.ofDigitChars_toDigits (by decide) (by decide)

theorem splitSub_sound {pat s a b : Bytes} (h : splitSub pat s = some (a, b)) : s = a ++ pat ++ b := by
  induction s generalizing a b with
  | nil =>
    unfold splitSub at h
    split at h
    · simp_all
    · simp at h
  | cons c cs ih =>
    unfold splitSub at h
    split at h
    · rename_i hp
      rw [List.isPrefixOf_iff_prefix] at hp
      obtain ⟨t, ht⟩ := hp
      simp only [Option.some.injEq, Prod.mk.injEq] at h
      obtain ⟨rfl, rfl⟩ := h
      rw [← ht]; simp
    · rw [Option.map_eq_some_iff] at h
      obtain ⟨⟨a', b'⟩, h1, h2⟩ := h
      simp only [Prod.mk.injEq] at h2
      obtain ⟨rfl, rfl⟩ := h2
      rw [ih h1]; simp

theorem splitSub_eq_none {pat s : Bytes} (h : splitSub pat s = none) : ¬ pat <:+: s := by
  induction s with
  | nil =>
    unfold splitSub at h
    split at h
    · simp at h
    · rename_i hp
      intro hi
      exact hp (List.eq_nil_of_infix_nil hi)
  | cons c cs ih =>
    unfold splitSub at h
    split at h
    · simp at h
    · rename_i hp
      rw [Option.map_eq_none_iff] at h
      rw [List.infix_cons_iff]
      rintro (h1 | h1)
      · exact hp (List.isPrefixOf_iff_prefix.2 h1)
      · exact ih h h1

/-- If no occurrence of `pat` starts inside `a` (looking at `a ++ pat ++ b`), the search stops right after `a`. -/
theorem splitSub_first {pat : Bytes} (hp : pat ≠ []) :
    ∀ (a b : Bytes), (∀ x y, a = x ++ y → y ≠ [] → ¬ pat <+: y ++ pat ++ b) →
      splitSub pat (a ++ pat ++ b) = some (a, b)
  | [], b, _ => by
    cases pat with
    | nil => exact absurd rfl hp
    | cons p ps =>
      simp only [List.nil_append, List.cons_append]
      unfold splitSub
      rw [if_pos]
      · simp
      · rw [List.isPrefixOf_iff_prefix, ← List.cons_append]; exact List.prefix_append _ _
  | c :: a, b, h => by
    rw [List.cons_append, List.cons_append]
    unfold splitSub
    rw [if_neg]
    · rw [splitSub_first hp a b]
      · simp
      · intro x y hxy hy
        exact h (c :: x) y (by rw [hxy]; simp) hy
    · rw [List.isPrefixOf_iff_prefix]
      have := h [] (c :: a) (by simp) (by simp)
      simpa using this

theorem splitCh_sound {ch : Char} {s a b : Bytes} (h : splitCh ch s = some (a, b)) :
    s = a ++ ch :: b ∧ ch ∉ a := by
  induction s generalizing a b with
  | nil => simp [splitCh] at h
  | cons c cs ih =>
    unfold splitCh at h
    split at h
    · rename_i hc
      simp only [Option.some.injEq, Prod.mk.injEq] at h
      obtain ⟨rfl, rfl⟩ := h
      simp [hc]
    · rename_i hc
      rw [Option.map_eq_some_iff] at h
      obtain ⟨⟨a', b'⟩, h1, h2⟩ := h
      simp only [Prod.mk.injEq] at h2
      obtain ⟨rfl, rfl⟩ := h2
      obtain ⟨h3, h4⟩ := ih h1
      refine ⟨by rw [h3]; simp, ?_⟩
      simp only [List.mem_cons, not_or]
      exact ⟨fun h => hc h.symm, h4⟩

theorem splitCh_append {ch : Char} : ∀ {a : Bytes} (b : Bytes), ch ∉ a → splitCh ch (a ++ ch :: b) = some (a, b)
  | [], b, _ => by simp [splitCh]
  | c :: a, b, h => by
    simp only [List.mem_cons, not_or] at h
    simp only [List.cons_append, splitCh]
    rw [if_neg (fun e => h.1 e.symm), splitCh_append b h.2]
    simp

theorem splitCh_none {ch : Char} : ∀ {a : Bytes}, ch ∉ a → splitCh ch a = none
  | [], _ => by simp [splitCh]
  | c :: a, h => by
    simp only [List.mem_cons, not_or] at h
    simp only [splitCh]
    rw [if_neg (fun e => h.1 e.symm), splitCh_none h.2]
    simp

theorem splitCh_none_iff {ch : Char} {a : Bytes} : splitCh ch a = none ↔ ch ∉ a := by
  constructor
  · intro h hm
    obtain ⟨x, y, rfl, hx⟩ : ∃ x y, a = x ++ ch :: y ∧ ch ∉ x := by
      induction a with
      | nil => simp at hm
      | cons c cs ih =>
        by_cases hc : c = ch
        · exact ⟨[], cs, by simp [hc], by simp⟩
        · simp only [List.mem_cons] at hm
          rcases hm with hm | hm
          · exact absurd hm.symm hc
          · have : splitCh ch cs = none := by
              simp only [splitCh, if_neg hc, Option.map_eq_none_iff] at h; exact h
            obtain ⟨x, y, rfl, hx⟩ := ih this hm
            exact ⟨c :: x, y, by simp, by simp [hx, Ne.symm hc]⟩
    rw [splitCh_append _ hx] at h
    simp at h
  · exact splitCh_none

end Verif
