/-!
Endless executions: the states they lead through, and a rule for showing that something comes about.
-/

namespace Verif

/-- The states an endless execution leads through. -/
def statesOf {σ ω : Type} (step : σ → ω → σ) (s : σ) (f : Nat → ω) : Nat → σ
  | 0 => s
  | t + 1 => step (statesOf step s f t) (f t)

theorem statesOf_run {σ ω : Type} (step : σ → ω → σ) (s : σ) (f : Nat → ω) (t : Nat) : statesOf step s f t = ((List.range t).map f).foldl step s := by
  induction t with
  | zero => rfl
  | succ t ih => simp only [statesOf, ih, List.range_succ, List.map_append, List.foldl_append]; rfl

/-- A rank that never grows, and in every state a kind of step that makes it smaller and comes again and again: then the goal is reached. -/
theorem leads {σ ω κ : Type} (step : σ → ω → σ) (s : σ) (f : Nat → ω) (P G : σ → Prop) (rank : σ → Nat) (help : σ → κ) (kind : κ → ω → Prop)
    (hstep : ∀ s op, P s → G (step s op) ∨ (P (step s op) ∧ (rank (step s op) < rank s ∨ (rank (step s op) = rank s ∧ help (step s op) = help s ∧ ¬ kind (help s) op))))
    (fair : ∀ s, P s → ∀ T, ∃ t, T ≤ t ∧ kind (help s) (f t)) (h : P s) : ∃ t, G (statesOf step s f t) := by
  have main : ∀ n T, P (statesOf step s f T) → rank (statesOf step s f T) = n → ∃ t, G (statesOf step s f t) := by
    intro n
    induction n using Nat.strongRecOn with
    | ind n ih =>
      intro T hT hn
      obtain ⟨v, hv, hk⟩ := fair _ hT T
      have key : ∀ d, (∃ t, G (statesOf step s f t)) ∨
          (P (statesOf step s f (T + d)) ∧ rank (statesOf step s f (T + d)) = n ∧ help (statesOf step s f (T + d)) = help (statesOf step s f T) ∧ T + d ≤ v) := by
        intro d
        induction d with
        | zero => exact .inr ⟨hT, hn, rfl, hv⟩
        | succ d ihd =>
          rcases ihd with ihd | ⟨p, r, hh, hle⟩
          · exact .inl ihd
          · rcases hstep _ (f (T + d)) p with g | ⟨p', lt | ⟨eq, heq, hnot⟩⟩
            · exact .inl ⟨T + d + 1, g⟩
            · exact .inl (ih _ (by rw [← r]; exact lt) (T + d + 1) p' rfl)
            · refine .inr ⟨p', eq.trans r, heq.trans hh, ?_⟩
              rcases Nat.lt_or_ge (T + d) v with c | c
              · omega
              · have e : T + d = v := by omega
                rw [hh, e] at hnot
                exact absurd hk hnot
      rcases key (v + 1 - T) with g | ⟨-, -, -, h4⟩
      · exact g
      · omega
  exact main _ 0 h rfl

/-- An endless list of numbers in which every number comes again and again: the numbers from 0 to n, for every n. -/
def spiral (p : Nat × Nat) : Nat × Nat := if p.1 = p.2 then (0, p.2 + 1) else (p.1 + 1, p.2)

def spiralAt : Nat → Nat × Nat
  | 0 => (0, 0)
  | t + 1 => spiral (spiralAt t)

theorem spiral_le (t : Nat) : (spiralAt t).1 ≤ (spiralAt t).2 := by
  induction t with
  | zero => exact Nat.le_refl _
  | succ t ih => simp only [spiralAt, spiral]; split <;> simp <;> omega

theorem spiral_row (t d : Nat) (h : (spiralAt t).1 + d ≤ (spiralAt t).2) : spiralAt (t + d) = ((spiralAt t).1 + d, (spiralAt t).2) := by
  induction d with
  | zero => rfl
  | succ d ih =>
    have := ih (by omega)
    rw [← Nat.add_assoc]
    simp only [spiralAt, this, spiral]
    rw [if_neg (by omega)]
    simp; omega

theorem spiral_next (t : Nat) : ∃ u, t ≤ u ∧ spiralAt (u + 1) = (0, (spiralAt t).2 + 1) := by
  have hle := spiral_le t
  have := spiral_row t ((spiralAt t).2 - (spiralAt t).1) (by omega)
  refine ⟨t + ((spiralAt t).2 - (spiralAt t).1), by omega, ?_⟩
  simp only [spiralAt, this, spiral]
  rw [if_pos (by omega)]

theorem spiral_again (t j : Nat) : ∃ u, t ≤ u ∧ (spiralAt u).1 = j := by
  have key : ∀ n, ∃ u, t ≤ u ∧ (spiralAt u).1 = 0 ∧ n ≤ (spiralAt u).2 := by
    intro n
    induction n with
    | zero =>
      obtain ⟨u, h1, h2⟩ := spiral_next t
      exact ⟨u + 1, by omega, by rw [h2], by omega⟩
    | succ n ih =>
      obtain ⟨u, h1, h2, h3⟩ := ih
      obtain ⟨v, g1, g2⟩ := spiral_next u
      exact ⟨v + 1, by omega, by rw [g2], by rw [g2]; simp; omega⟩
  obtain ⟨u, h1, h2, h3⟩ := key j
  exact ⟨u + j, by omega, by rw [spiral_row u j (by omega)]; simp [h2]⟩

end Verif
