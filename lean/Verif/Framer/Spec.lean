import Verif.Framer.Lemmas

/-! Specification vocabulary for frame headers, independent of the decoder. -/

namespace Verif.Framer

/-- The line is a field whose name is, ignoring ASCII case, Content-Length, and `value` is everything after
the first colon. -/
def IsClen (line value : Bytes) : Prop :=
  ∃ name, line = name ++ ':' :: value ∧ ':' ∉ name ∧ name.map lowerCh = lit "content-length"

/-- The line declares body length `n`: optional white space and a decimal number. -/
def Declares (line : Bytes) (n : Nat) : Prop :=
  ∃ ws ds, IsClen line (ws ++ ds) ∧ (∀ c ∈ ws, isSpaceCh c = true) ∧ ds ≠ [] ∧
    (∀ c ∈ ds, isDig c = true) ∧ digitsVal ds = n

/-- The line says nothing about the length. -/
def Other (line : Bytes) : Prop := ∀ value, ¬ IsClen line value

/-- The line is a Content-Length field whose value does not begin like a number. -/
def Garbled (line : Bytes) : Prop :=
  ∃ ws v, IsClen line (ws ++ v) ∧ (∀ c ∈ ws, isSpaceCh c = true) ∧
    ∀ c, v.head? = some c → isSpaceCh c = false ∧ isDig c = false ∧ c ≠ '+' ∧ c ≠ '-'

theorem dropWhile_append_all {p : Char → Bool} : ∀ {ws r : Bytes}, (∀ c ∈ ws, p c = true) → (ws ++ r).dropWhile p = r.dropWhile p
  | [], _, _ => rfl
  | w :: ws, r, h => by
    rw [List.cons_append, List.dropWhile_cons, if_pos (h w (by simp))]
    exact dropWhile_append_all (fun c hc => h c (by simp [hc]))

theorem clenValue_of {line value : Bytes} (h : IsClen line value) : clenValue line = some (value.dropWhile isSpaceCh) := by
  obtain ⟨name, rfl, hn, hl⟩ := h
  rw [clenValue, splitCh_append _ hn]
  simp only [if_pos hl]

theorem clenValue_other {line : Bytes} (h : Other line) : clenValue line = none := by
  unfold clenValue
  split
  · rfl
  · rename_i name value hs
    obtain ⟨h1, h2⟩ := splitCh_sound hs
    split
    · rename_i hl
      exact absurd ⟨name, h1, h2, hl⟩ (h value)
    · rfl

theorem declares_value {line : Bytes} {n : Nat} (h : Declares line n) :
    ∃ v, clenValue line = some v ∧ stoull v = if n > sizeMax then none else some n := by
  obtain ⟨ws, ds, hc, hws, hne, hds, rfl⟩ := h
  refine ⟨_, clenValue_of hc, ?_⟩
  rw [dropWhile_append_all hws]
  have : ds.dropWhile isSpaceCh = ds := dropWhile_none (by
    intro c hc; exact isDig_not_space (hds c (List.mem_of_mem_head? hc)))
  rw [this]
  have := stoull_digits (r := []) hne hds (by simp)
  rwa [List.append_nil] at this

theorem garbled_value {line : Bytes} (h : Garbled line) : ∃ v, clenValue line = some v ∧ stoull v = none := by
  obtain ⟨ws, v, hc, hws, hv⟩ := h
  refine ⟨_, clenValue_of hc, ?_⟩
  rw [dropWhile_append_all hws]
  have e : v.dropWhile isSpaceCh = v := dropWhile_none (fun c hc => (hv c hc).1)
  rw [e]
  unfold stoull
  simp only [e]
  cases v with
  | nil => simp
  | cons c v =>
    obtain ⟨h1, h2, h3, h4⟩ := hv c rfl
    simp [h2, h3, h4]

theorem scanLines_others {max : Nat} {acc : Option Nat} : ∀ {pre : List Bytes} (post : List Bytes), (∀ l ∈ pre, Other l) →
    scanLines max acc (pre ++ post) = scanLines max acc post
  | [], _, _ => rfl
  | l :: pre, post, h => by
    rw [List.cons_append, scanLines, clenValue_other (h l (by simp))]
    exact scanLines_others post (fun x hx => h x (by simp [hx]))

end Verif.Framer
