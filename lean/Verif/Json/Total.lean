import Verif.Json.RoundTrip

/-! The parser never runs out of fuel and only moves forward. -/

namespace Verif

variable {D : Type} [DblFmt D]

theorem takeSign_suffix (s : Bytes) : (takeSign s).2 <:+ s := by
  cases s with
  | nil => exact List.suffix_rfl
  | cons c cs =>
    rw [takeSign]
    split
    · exact List.suffix_cons _ _
    · exact List.suffix_rfl

theorem takeDigits_suffix (s : Bytes) : (takeDigits s).2 <:+ s := by
  induction s with
  | nil => exact List.suffix_rfl
  | cons c cs ih =>
    rw [takeDigits]
    split
    · exact ih.trans (List.suffix_cons _ _)
    · exact List.suffix_rfl

theorem takeFrac_suffix (s : Bytes) : (takeFrac s).2.2 <:+ s := by
  unfold takeFrac
  split
  · exact (takeDigits_suffix _).trans (List.suffix_cons _ _)
  · exact List.suffix_rfl

theorem takeExp_suffix (s : Bytes) : (takeExp s).2.2 <:+ s := by
  cases s with
  | nil => exact List.suffix_rfl
  | cons c cs =>
    rw [takeExp]
    split
    · exact ((takeDigits_suffix _).trans (takeSign_suffix _)).trans (List.suffix_cons _ _)
    · exact List.suffix_rfl

theorem parseNumber_suffix (s : Bytes) : (parseNumber (D := D) s).2 <:+ s := by
  have h : (takeExp (takeFrac (takeDigits (takeSign s).2).2).2.2).2.2 <:+ s :=
    (((takeExp_suffix _).trans (takeFrac_suffix _)).trans (takeDigits_suffix _)).trans (takeSign_suffix _)
  unfold parseNumber
  dsimp only
  split <;> split <;> exact h

theorem parseScalar_suffix (s : Bytes) : (parseScalar (D := D) s).2 <:+ s := by
  unfold parseScalar
  split
  · exact List.drop_suffix _ _
  split
  · exact List.drop_suffix _ _
  split
  · exact List.drop_suffix _ _
  · exact parseNumber_suffix s

theorem parseString_suffix {s k r : Bytes} (h : parseString s = .ok k r) : r <:+ s := by
  unfold parseString at h
  split at h
  · next rest heq =>
    exact ((strBody_suffix _ h).trans (List.suffix_cons '"' rest)).trans (heq ▸ skipWs_suffix s)
  · simp at h

theorem parseString_lt {s k r : Bytes} (h : parseString s = .ok k r) : r.length < s.length := by
  unfold parseString at h
  split at h
  · next rest heq =>
    have h1 := (strBody_suffix _ h).length_le
    have h2 := (skipWs_suffix s).length_le
    rw [heq] at h2
    simp at h2; omega
  · simp at h

theorem parseString_ne_fuel (s : Bytes) : parseString s ≠ .fuel := by
  unfold parseString
  split
  · exact strBody_ne_fuel _
  · simp

theorem suffix_of_skipWs {c : Char} {s r : Bytes} (h : skipWs s = c :: r) : r <:+ s :=
  (List.suffix_cons c r).trans (h ▸ skipWs_suffix s)

theorem length_of_skipWs {c : Char} {s r : Bytes} (h : skipWs s = c :: r) : r.length < s.length := by
  have := (skipWs_suffix s).length_le
  rw [h] at this; simp at this; omega

theorem parse_suffix (n : Nat) :
    (∀ s (v : JVal D) r, parseValue n s = .ok v r → r <:+ s) ∧
    (∀ s (v : List (JVal D)) r, arrLoop n s = .ok v r → r <:+ s) ∧
    (∀ acc s (v : JVal D) r, objLoop n acc s = .ok v r → r <:+ s) := by
  induction n with
  | zero =>
    refine ⟨?_, ?_, ?_⟩
    · intro s v r h; simp [parseValue] at h
    · intro s v r h; simp [arrLoop] at h
    · intro acc s v r h; simp [objLoop] at h
  | succ n ih =>
    obtain ⟨ih1, ih2, ih3⟩ := ih
    refine ⟨?_, ?_, ?_⟩
    · intro s v r h
      rw [parseValue.eq_def] at h
      dsimp only at h
      split at h
      · simp at h
      · next c cs hs =>
        have hcs := suffix_of_skipWs hs
        split at h
        · obtain ⟨a, ha, _⟩ := PR.map_ok h
          exact (strBody_suffix _ ha).trans hcs
        split at h
        · split at h
          · next r' hr' => simp at h; rw [← h.2]; exact (suffix_of_skipWs hr').trans hcs
          · exact ((ih3 _ _ _ _ h).trans (skipWs_suffix _)).trans hcs
        split at h
        · split at h
          · next r' hr' => simp at h; rw [← h.2]; exact (suffix_of_skipWs hr').trans hcs
          · obtain ⟨a, ha, _⟩ := PR.map_ok h
            exact ((ih2 _ _ _ ha).trans (skipWs_suffix _)).trans hcs
        · simp only [PR.ok.injEq] at h
          rw [← h.2]
          exact (parseScalar_suffix _).trans (hs ▸ skipWs_suffix s)
    · intro s v r h
      rw [arrLoop.eq_def] at h
      dsimp only at h
      split at h
      · simp at h
      · simp at h
      · next v' r' hv' =>
        have h1 := ih1 _ _ _ hv'
        split at h
        · next hr' => simp at h; rw [← h.2]; exact (suffix_of_skipWs hr').trans h1
        · next hr' =>
          obtain ⟨a, ha, _⟩ := PR.map_ok h
          exact ((ih2 _ _ _ ha).trans (suffix_of_skipWs hr')).trans h1
        · simp at h
    · intro acc s v r h
      rw [objLoop.eq_def] at h
      dsimp only at h
      split at h
      · simp at h
      · simp at h
      · next k r' hk =>
        have h0 := parseString_suffix hk
        split at h
        · next r1 hr1 =>
          have h1 := (suffix_of_skipWs hr1).trans h0
          split at h
          · simp at h
          · simp at h
          · next v' r2 hv' =>
            have h2 := (ih1 _ _ _ hv').trans h1
            split at h
            · next hr3 => simp at h; rw [← h.2]; exact (suffix_of_skipWs hr3).trans h2
            · next hr3 => exact ((ih3 _ _ _ _ h).trans (suffix_of_skipWs hr3)).trans h2
            · simp at h
        · simp at h

theorem PR.map_ne_fuel {α β : Type} {f : α → β} {p : PR α} (h : p ≠ .fuel) : p.map f ≠ .fuel := by
  cases p <;> simp_all [PR.map]

theorem parse_no_fuel (n : Nat) :
    (∀ s, 2 * s.length + 1 ≤ n → parseValue (D := D) n s ≠ .fuel) ∧
    (∀ s, 2 * s.length + 2 ≤ n → arrLoop (D := D) n s ≠ .fuel) ∧
    (∀ acc s, 2 * s.length + 2 ≤ n → objLoop (D := D) n acc s ≠ .fuel) := by
  induction n with
  | zero => exact ⟨fun s h => by omega, fun s h => by omega, fun acc s h => by omega⟩
  | succ n ih =>
    obtain ⟨ih1, ih2, ih3⟩ := ih
    refine ⟨?_, ?_, ?_⟩
    · intro s hn
      rw [parseValue.eq_def]
      dsimp only
      split
      · simp
      · next c cs hs =>
        have hcs := length_of_skipWs hs
        have hw := (skipWs_suffix cs).length_le
        split
        · exact PR.map_ne_fuel (strBody_ne_fuel _)
        split
        · split
          · simp
          · exact ih3 _ _ (by omega)
        split
        · split
          · simp
          · exact PR.map_ne_fuel (ih2 _ (by omega))
        · simp
    · intro s hn
      rw [arrLoop.eq_def]
      dsimp only
      split
      · simp
      · next h => exact absurd h (ih1 _ (by omega))
      · next v' r' hv' =>
        have h1 := ((parse_suffix n).1 _ _ _ hv').length_le
        split
        · simp
        · next hr' =>
          have h2 := length_of_skipWs hr'
          exact PR.map_ne_fuel (ih2 _ (by omega))
        · simp
    · intro acc s hn
      rw [objLoop.eq_def]
      dsimp only
      split
      · simp
      · next h => exact absurd h (parseString_ne_fuel _)
      · next k r' hk =>
        have h0 := parseString_lt hk
        split
        · next r1 hr1 =>
          have h1 := length_of_skipWs hr1
          split
          · simp
          · next h => exact absurd h (ih1 _ (by omega))
          · next v' r2 hv' =>
            have h2 := ((parse_suffix n).1 _ _ _ hv').length_le
            split
            · simp
            · next hr3 =>
              have h3 := length_of_skipWs hr3
              exact ih3 _ _ (by omega)
            · simp
        · simp

end Verif

namespace Verif

variable {D : Type} [DblFmt D]

/-- More fuel never changes a result. -/
theorem parse_mono (n : Nat) :
    (∀ s, parseValue (D := D) n s ≠ .fuel → parseValue (D := D) (n + 1) s = parseValue n s) ∧
    (∀ s, arrLoop (D := D) n s ≠ .fuel → arrLoop (D := D) (n + 1) s = arrLoop n s) ∧
    (∀ acc s, objLoop (D := D) n acc s ≠ .fuel → objLoop (D := D) (n + 1) acc s = objLoop n acc s) := by
  induction n with
  | zero =>
    refine ⟨?_, ?_, ?_⟩
    · intro s h; exact absurd (by simp [parseValue]) h
    · intro s h; exact absurd (by simp [arrLoop]) h
    · intro acc s h; exact absurd (by simp [objLoop]) h
  | succ n ih =>
    obtain ⟨ih1, ih2, ih3⟩ := ih
    refine ⟨?_, ?_, ?_⟩
    · intro s h
      rw [parseValue.eq_def] at h
      rw [parseValue.eq_def (n + 1 + 1), parseValue.eq_def (n + 1)]
      dsimp only at h ⊢
      split
      · rfl
      · next c cs hs =>
        simp only [hs] at h
        by_cases h1 : c = '"'
        · simp only [if_pos h1]
        by_cases h2 : c = '{'
        · simp only [if_neg h1, if_pos h2] at h ⊢
          split
          · rfl
          · next hx =>
            split at h
            · next heq => exact absurd heq (hx _)
            · exact ih3 _ _ h
        by_cases h3 : c = '['
        · simp only [if_neg h1, if_neg h2, if_pos h3] at h ⊢
          split
          · rfl
          · next hx =>
            split at h
            · next heq => exact absurd heq (hx _)
            · rw [ih2]
              intro hf; rw [hf] at h; exact h rfl
        · simp only [if_neg h1, if_neg h2, if_neg h3]
    · intro s h
      rw [arrLoop.eq_def] at h
      rw [arrLoop.eq_def (n + 1 + 1), arrLoop.eq_def (n + 1)]
      dsimp only at h ⊢
      cases hp : parseValue (D := D) n s with
      | fuel => simp [hp] at h
      | throw => rw [ih1 s (by simp [hp]), hp]
      | ok v r =>
        rw [ih1 s (by simp [hp]), hp]
        simp only [hp] at h ⊢
        split
        · rfl
        · next heq =>
          simp only [heq] at h
          rw [ih2]
          intro hf; rw [hf] at h; exact h rfl
        · rfl
    · intro acc s h
      rw [objLoop.eq_def] at h
      rw [objLoop.eq_def (n + 1 + 1), objLoop.eq_def (n + 1)]
      dsimp only at h ⊢
      split
      · rfl
      · rfl
      · next k r hk =>
        simp only [hk] at h
        split
        · next r1 hr1 =>
          simp only [hr1] at h
          cases hp : parseValue (D := D) n r1 with
          | fuel => simp [hp] at h
          | throw => rw [ih1 r1 (by simp [hp]), hp]
          | ok v r2 =>
            rw [ih1 r1 (by simp [hp]), hp]
            simp only [hp] at h ⊢
            split
            · rfl
            · next heq =>
              simp only [heq] at h
              exact ih3 _ _ h
            · rfl
        · rfl

theorem parseValue_fuel_irrel (s : Bytes) (n : Nat) (h : 2 * s.length + 1 ≤ n) :
    parseValue (D := D) n s = parseJson s := by
  have key : ∀ k, parseValue (D := D) (2 * s.length + 1 + k) s = parseValue (2 * s.length + 1) s := by
    intro k
    induction k with
    | zero => rfl
    | succ k ih =>
      rw [← ih]
      exact (parse_mono (2 * s.length + 1 + k)).1 s ((parse_no_fuel (2 * s.length + 1 + k)).1 s (by omega))
  obtain ⟨k, rfl⟩ : ∃ k, n = 2 * s.length + 1 + k := ⟨n - (2 * s.length + 1), by omega⟩
  rw [key k, parseJson, ← key 1]

end Verif
