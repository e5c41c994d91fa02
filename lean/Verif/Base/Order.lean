import Verif.Base.Bytes

/-! The order of `std::string` (`operator<` compares bytes as unsigned numbers) and `std::sort` by a key. -/

namespace Verif

/-- `a < b` of `std::string`. -/
def bytesLt : Bytes → Bytes → Bool
  | _, [] => false
  | [], _ :: _ => true
  | a :: as, b :: bs => decide (a.toNat < b.toNat) || (decide (a.toNat = b.toNat) && bytesLt as bs)

/-- Not `b < a`. -/
def bytesLe (a b : Bytes) : Bool := !bytesLt b a

/-- Put `a` before the first entry that is not smaller. -/
def insertBy {T : Type} (key : T → Bytes) (a : T) : List T → List T
  | [] => [a]
  | b :: l => if bytesLe (key a) (key b) then a :: b :: l else b :: insertBy key a l

/-- `std::sort(v.begin(), v.end(), key a < key b)`. With equal keys `std::sort` may order the entries either way; a stable sort is one of
the possible results. -/
def sortBy {T : Type} (key : T → Bytes) : List T → List T
  | [] => []
  | a :: l => insertBy key a (sortBy key l)

theorem bytesLt_irrefl (a : Bytes) : bytesLt a a = false := by
  induction a with
  | nil => rfl
  | cons c a ih => simp [bytesLt, ih]

theorem bytesLt_trans {a b c : Bytes} (h1 : bytesLt a b = true) (h2 : bytesLt b c = true) : bytesLt a c = true := by
  induction a generalizing b c with
  | nil =>
    cases b with
    | nil => cases h1
    | cons _ _ => cases c with
      | nil => simp [bytesLt] at h2
      | cons _ _ => rfl
  | cons x a ih =>
    cases b with
    | nil => cases h1
    | cons y b =>
      cases c with
      | nil => simp [bytesLt] at h2
      | cons z c =>
        simp only [bytesLt, Bool.or_eq_true, Bool.and_eq_true, decide_eq_true_eq] at h1 h2 ⊢
        rcases h1 with h1 | ⟨e1, h1⟩
        · rcases h2 with h2 | ⟨e2, h2⟩
          · exact .inl (by omega)
          · exact .inl (by omega)
        · rcases h2 with h2 | ⟨e2, h2⟩
          · exact .inl (by omega)
          · exact .inr ⟨by omega, ih h1 h2⟩

theorem char_toNat_inj {a b : Char} (h : a.toNat = b.toNat) : a = b := Char.toNat_inj.1 h

theorem bytesLt_total {a b : Bytes} (h1 : bytesLt a b = false) (h2 : bytesLt b a = false) : a = b := by
  induction a generalizing b with
  | nil =>
    cases b with
    | nil => rfl
    | cons _ _ => cases h1
  | cons x a ih =>
    cases b with
    | nil => cases h2
    | cons y b =>
      simp only [bytesLt, Bool.or_eq_false_iff, Bool.and_eq_false_iff, decide_eq_false_iff_not] at h1 h2
      have e : x.toNat = y.toNat := by omega
      have r1 : bytesLt a b = false := by rcases h1.2 with h | h <;> first | exact absurd e h | exact h
      have r2 : bytesLt b a = false := by rcases h2.2 with h | h <;> first | exact absurd e.symm h | exact h
      rw [char_toNat_inj e, ih r1 r2]

theorem bytesLe_trans {a b c : Bytes} (h1 : bytesLe a b = true) (h2 : bytesLe b c = true) : bytesLe a c = true := by
  unfold bytesLe at *
  simp only [Bool.not_eq_eq_eq_not, Bool.not_true] at *
  cases h : bytesLt c a with
  | false => rfl
  | true =>
    cases hb : bytesLt a b with
    | true =>
      rw [bytesLt_trans h hb] at h2; cases h2
    | false =>
      have := bytesLt_total hb h1
      subst this
      rw [h2] at h; cases h

theorem bytesLe_total (a b : Bytes) : (bytesLe a b || bytesLe b a) = true := by
  unfold bytesLe
  cases h1 : bytesLt b a with
  | false => rfl
  | true =>
    cases h2 : bytesLt a b with
    | false => rfl
    | true => have := bytesLt_trans h1 h2; rw [bytesLt_irrefl] at this; cases this

theorem bytesLe_antisymm {a b : Bytes} (h1 : bytesLe a b = true) (h2 : bytesLe b a = true) : a = b := by
  unfold bytesLe at *
  simp only [Bool.not_eq_eq_eq_not, Bool.not_true] at *
  exact bytesLt_total h2 h1

theorem insertBy_perm {T : Type} (key : T → Bytes) (a : T) (l : List T) : (insertBy key a l).Perm (a :: l) := by
  induction l with
  | nil => exact List.Perm.refl _
  | cons b l ih =>
    unfold insertBy
    split
    · exact List.Perm.refl _
    · exact (ih.cons b).trans (List.Perm.swap a b l)

theorem sortBy_perm {T : Type} (key : T → Bytes) (l : List T) : (sortBy key l).Perm l := by
  induction l with
  | nil => exact List.Perm.refl _
  | cons a l ih => exact (insertBy_perm key a _).trans (ih.cons a)

theorem insertBy_sorted {T : Type} (key : T → Bytes) (a : T) (l : List T) (h : l.Pairwise (fun a b => bytesLe (key a) (key b) = true)) :
    (insertBy key a l).Pairwise (fun a b => bytesLe (key a) (key b) = true) := by
  induction l with
  | nil => simp [insertBy]
  | cons b l ih =>
    rw [List.pairwise_cons] at h
    unfold insertBy
    split
    · rename_i hab
      refine List.pairwise_cons.2 ⟨?_, List.pairwise_cons.2 h⟩
      intro c hc
      rcases List.mem_cons.1 hc with rfl | hc
      · exact hab
      · exact bytesLe_trans hab (h.1 c hc)
    · rename_i hab
      refine List.pairwise_cons.2 ⟨?_, ih h.2⟩
      intro c hc
      rcases List.mem_cons.1 ((insertBy_perm key a l).subset hc) with rfl | hc
      · have := bytesLe_total (key c) (key b)
        rw [Bool.not_eq_true] at hab
        rw [hab] at this
        exact this
      · exact h.1 c hc

theorem sortBy_sorted {T : Type} (key : T → Bytes) (l : List T) :
    (sortBy key l).Pairwise (fun a b => bytesLe (key a) (key b) = true) := by
  induction l with
  | nil => exact List.Pairwise.nil
  | cons a l ih => exact insertBy_sorted key a _ ih

/-- With distinct keys the result is strictly increasing. -/
theorem sortBy_strict {T : Type} (key : T → Bytes) (l : List T) (hn : (l.map key).Nodup) :
    (sortBy key l).Pairwise (fun a b => bytesLt (key a) (key b) = true) := by
  have h1 := sortBy_sorted key l
  have h2 : ((sortBy key l).map key).Nodup := ((sortBy_perm key l).map key).nodup_iff.2 hn
  rw [List.nodup_iff_pairwise_ne, List.pairwise_map] at h2
  refine (h1.and h2).imp ?_
  intro a b h
  cases hl : bytesLt (key a) (key b) with
  | true => rfl
  | false =>
    have h3 := h.1
    unfold bytesLe at h3
    simp only [Bool.not_eq_eq_eq_not, Bool.not_true] at h3
    exact absurd (bytesLt_total hl h3) h.2

/-- A strictly increasing list is determined by its elements: the order in which the entries were collected does not matter. -/
theorem strict_unique {T : Type} (key : T → Bytes) {l l' : List T} (hp : l.Perm l')
    (h : l.Pairwise (fun a b => bytesLt (key a) (key b) = true)) (h' : l'.Pairwise (fun a b => bytesLt (key a) (key b) = true)) : l = l' := by
  induction l generalizing l' with
  | nil => exact (List.nil_perm.1 hp).symm
  | cons a l ih =>
    cases l' with
    | nil => exact absurd (List.perm_nil.1 hp) (by simp)
    | cons b l' =>
      rw [List.pairwise_cons] at h h'
      have e : a = b := by
        have ha : a ∈ b :: l' := hp.subset (by simp)
        have hb : b ∈ a :: l := hp.symm.subset (by simp)
        rcases List.mem_cons.1 ha with rfl | ha
        · rfl
        · rcases List.mem_cons.1 hb with rfl | hb
          · rfl
          · have := bytesLt_trans (h.1 b hb) (h'.1 a ha)
            rw [bytesLt_irrefl] at this
            cases this
      subst e
      rw [ih (List.Perm.cons_inv hp) h.2 h'.2]

/-- Sorting does not depend on the order of the input when the keys are distinct. -/
theorem sortBy_of_perm {T : Type} (key : T → Bytes) {l l' : List T} (hp : l.Perm l') (hn : (l.map key).Nodup) :
    sortBy key l = sortBy key l' :=
  strict_unique key ((sortBy_perm key l).trans (hp.trans (sortBy_perm key l').symm)) (sortBy_strict key l hn)
    (sortBy_strict key l' ((hp.map key).nodup_iff.1 hn))

end Verif
