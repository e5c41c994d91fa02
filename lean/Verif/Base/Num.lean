import Verif.Base.Lemmas

/-! `std::stoll` and conversions to `size_t`. -/

namespace Verif

/-- `std::stoll(s)` (base 10): leading white space, optional sign, digits; `none` is an exception (no digits or out of range).
Trailing text is ignored. -/
def stoll (s : Bytes) : Option Int :=
  let s1 := s.dropWhile isSpaceCh
  let neg := s1.head? = some '-'
  let s2 := if s1.head? = some '-' ∨ s1.head? = some '+' then s1.drop 1 else s1
  let ds := s2.takeWhile isDig
  if ds = [] then none
  else
    let v : Int := if neg then -(digitsVal ds : Int) else digitsVal ds
    if -(2 ^ 63) ≤ v ∧ v < 2 ^ 63 then some v else none

/-- `static_cast<size_t>(i)`. -/
def toSize (i : Int) : Nat := (i % 2 ^ 64).toNat

theorem toSize_nat {n : Nat} (h : n < 2 ^ 64) : toSize (n : Int) = n := by
  unfold toSize
  omega

theorem takeWhile_all {p : Char → Bool} {l : Bytes} (h : ∀ c ∈ l, p c = true) : l.takeWhile p = l := by
  induction l with
  | nil => rfl
  | cons c l ih => rw [List.takeWhile_cons, if_pos (h c (by simp)), ih (fun x hx => h x (by simp [hx]))]

theorem stoll_natDec {n : Nat} (h : n < 2 ^ 63) : stoll (natDec n) = some (n : Int) := by
  have hne := natDec_ne_nil n
  have hd : ∀ c ∈ natDec n, isDig c = true := fun c hc => natDec_isDig hc
  have h1 : (natDec n).dropWhile isSpaceCh = natDec n := by
    cases hn : natDec n with
    | nil => exact absurd hn hne
    | cons c l =>
      have hc : isDig c = true := hd c (by rw [hn]; simp)
      rw [List.dropWhile_cons, if_neg]
      intro hs
      have hc' := of_decide_eq_true hc
      simp only [isSpaceCh, Bool.or_eq_true, decide_eq_true_eq] at hs
      have e0 : '0'.toNat = 48 := rfl
      have e9 : '9'.toNat = 57 := rfl
      rw [e0, e9] at hc'
      have a1 : ' '.toNat = 32 := rfl
      have a2 : '\t'.toNat = 9 := rfl
      have a3 : '\n'.toNat = 10 := rfl
      have a4 : '\r'.toNat = 13 := rfl
      rcases hs with ((((rfl | rfl) | rfl) | rfl) | hs) | hs <;> omega
  have h2 : (natDec n).head? ≠ some '-' ∧ (natDec n).head? ≠ some '+' := by
    cases hn : natDec n with
    | nil => exact absurd hn hne
    | cons c l =>
      have hc : isDig c = true := hd c (by rw [hn]; simp)
      constructor <;> (intro e; simp at e; subst e; revert hc; decide)
  unfold stoll
  simp only [h1, h2, false_or, if_false, takeWhile_all hd, hne, digitsVal_natDec]
  rw [if_pos ⟨by omega, by omega⟩]

theorem stoll_intDec {i : Int} (h1 : -(2 ^ 63) ≤ i) (h2 : i < 2 ^ 63) : stoll (intDec i) = some i := by
  cases i with
  | ofNat n => exact stoll_natDec (by simp at h2; omega)
  | negSucc n =>
    have hd : ∀ c ∈ natDec (n + 1), isDig c = true := fun c hc => natDec_isDig hc
    have hdrop : ('-' :: natDec (n + 1)).dropWhile isSpaceCh = '-' :: natDec (n + 1) := by
      rw [List.dropWhile_cons, if_neg (by decide)]
    unfold stoll intDec
    simp only [hdrop, List.head?_cons, true_or, if_true, List.drop_one, List.tail_cons, takeWhile_all hd, natDec_ne_nil, if_false,
      digitsVal_natDec]
    rw [if_pos ⟨by omega, by omega⟩]
    congr 1

end Verif
