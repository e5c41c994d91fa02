import Verif.Base.Bytes

/-!
Finite maps as association lists: the model of `std::unordered_map` and `std::map`.
`put` moves the key to the end; iteration order of the C++ containers is never relied upon except where a
model says so.
-/

namespace Verif

variable {K V : Type} [DecidableEq K]

/-- `m.find(k)`. -/
def AMap.get (m : List (K × V)) (k : K) : Option V :=
  match m with
  | [] => none
  | (k', v) :: m => if k' = k then some v else AMap.get m k

/-- `m.erase(k)`. -/
def AMap.del (m : List (K × V)) (k : K) : List (K × V) := m.filter (fun p => decide (p.1 ≠ k))

/-- `m[k] = v`. -/
def AMap.put (m : List (K × V)) (k : K) (v : V) : List (K × V) := AMap.del m k ++ [(k, v)]

/-- The keys, in iteration order. -/
def AMap.keys (m : List (K × V)) : List K := m.map (·.1)

namespace AMap

theorem get_nil (k : K) : get ([] : List (K × V)) k = none := rfl

theorem get_cons (p : K × V) (m : List (K × V)) (k : K) :
    get (p :: m) k = if p.1 = k then some p.2 else get m k := by
  cases p; rfl

theorem get_append (m m' : List (K × V)) (k : K) :
    get (m ++ m') k = (get m k).or (get m' k) := by
  induction m with
  | nil => simp [get_nil]
  | cons p m ih =>
    rw [List.cons_append, get_cons, get_cons]
    split
    · simp
    · exact ih

theorem get_del_self (m : List (K × V)) (k : K) : get (del m k) k = none := by
  induction m with
  | nil => rfl
  | cons p m ih =>
    unfold del at *
    rw [List.filter_cons]
    split
    · rename_i h
      rw [get_cons, if_neg (by simpa using h)]
      exact ih
    · exact ih

theorem get_del_ne (m : List (K × V)) {k k' : K} (h : k' ≠ k) : get (del m k) k' = get m k' := by
  induction m with
  | nil => rfl
  | cons p m ih =>
    unfold del at *
    rw [List.filter_cons]
    split
    · rw [get_cons, get_cons, ih]
    · rename_i hp
      rw [get_cons, if_neg]
      · exact ih
      · simp only [ne_eq, decide_not, Bool.not_eq_eq_eq_not, Bool.not_true, decide_eq_false_iff_not,
          Classical.not_not] at hp
        rw [hp]; exact fun e => h e.symm

theorem get_del (m : List (K × V)) (k k' : K) : get (del m k) k' = if k' = k then none else get m k' := by
  split
  · rename_i h; rw [h, get_del_self]
  · rename_i h; exact get_del_ne m h

theorem get_put (m : List (K × V)) (k : K) (v : V) (k' : K) :
    get (put m k v) k' = if k' = k then some v else get m k' := by
  unfold put
  rw [get_append, get_del]
  split
  · rename_i h; subst h; simp [get_cons]
  · rename_i h
    rw [get_cons, if_neg (fun e => h e.symm), get_nil]
    simp

theorem get_put_self (m : List (K × V)) (k : K) (v : V) : get (put m k v) k = some v := by
  rw [get_put, if_pos rfl]

theorem get_put_ne (m : List (K × V)) {k k' : K} (v : V) (h : k' ≠ k) : get (put m k v) k' = get m k' := by
  rw [get_put, if_neg h]

theorem get_some_mem {m : List (K × V)} {k : K} {v : V} (h : get m k = some v) : (k, v) ∈ m := by
  induction m with
  | nil => cases h
  | cons p m ih =>
    rw [get_cons] at h
    split at h
    · rename_i hp
      simp only [Option.some.injEq] at h
      subst hp; subst h; simp
    · simp [ih h]

theorem get_none_iff {m : List (K × V)} {k : K} : get m k = none ↔ k ∉ keys m := by
  induction m with
  | nil => simp [get_nil, keys]
  | cons p m ih =>
    rw [get_cons]
    split
    · rename_i hp; simp [keys, hp]
    · rename_i hp
      rw [ih]
      simp only [keys, List.map_cons, List.mem_cons, not_or]
      exact ⟨fun h => ⟨fun e => hp e.symm, h⟩, fun h => h.2⟩

theorem mem_get {m : List (K × V)} {k : K} {v : V} (hn : (keys m).Nodup) (h : (k, v) ∈ m) : get m k = some v := by
  induction m with
  | nil => cases h
  | cons p m ih =>
    simp only [keys, List.map_cons, List.nodup_cons] at hn
    rw [get_cons]
    simp only [List.mem_cons] at h
    rcases h with h | h
    · subst h; simp
    · rw [if_neg]
      · exact ih hn.2 h
      · intro e
        apply hn.1
        rw [e]
        exact List.mem_map.2 ⟨(k, v), h, rfl⟩

theorem mem_del {m : List (K × V)} {k : K} {p : K × V} : p ∈ del m k ↔ p ∈ m ∧ p.1 ≠ k := by
  simp [del]

theorem keys_del (m : List (K × V)) (k : K) : keys (del m k) = (keys m).filter (fun x => decide (x ≠ k)) := by
  simp [keys, del, List.filter_map, Function.comp_def]

theorem mem_keys_del {m : List (K × V)} {k k' : K} : k' ∈ keys (del m k) ↔ k' ∈ keys m ∧ k' ≠ k := by
  rw [keys_del]; simp

theorem keys_put (m : List (K × V)) (k : K) (v : V) : keys (put m k v) = keys (del m k) ++ [k] := by
  simp [keys, put]

theorem mem_keys_put {m : List (K × V)} {k k' : K} {v : V} : k' ∈ keys (put m k v) ↔ k' = k ∨ k' ∈ keys m := by
  rw [keys_put, List.mem_append, mem_keys_del]
  simp only [List.mem_singleton]
  constructor
  · rintro (h | h)
    · exact Or.inr h.1
    · exact Or.inl h
  · rintro (h | h)
    · exact Or.inr h
    · by_cases e : k' = k
      · exact Or.inr e
      · exact Or.inl ⟨h, e⟩

theorem nodup_del {m : List (K × V)} (k : K) (h : (keys m).Nodup) : (keys (del m k)).Nodup := by
  rw [keys_del]; exact h.filter _

theorem nodup_put {m : List (K × V)} (k : K) (v : V) (h : (keys m).Nodup) : (keys (put m k v)).Nodup := by
  rw [keys_put, List.nodup_append]
  refine ⟨nodup_del k h, by simp, ?_⟩
  intro a ha b hb
  simp only [List.mem_singleton] at hb
  subst hb
  exact (mem_keys_del.1 ha).2

theorem mem_put {m : List (K × V)} {k : K} {v : V} {p : K × V} : p ∈ put m k v ↔ (p ∈ m ∧ p.1 ≠ k) ∨ p = (k, v) := by
  simp [put, mem_del]

theorem del_of_not_mem {m : List (K × V)} {k : K} (h : k ∉ keys m) : del m k = m := by
  unfold del
  rw [List.filter_eq_self]
  intro p hp
  simp only [ne_eq, decide_not, Bool.not_eq_eq_eq_not, Bool.not_true, decide_eq_false_iff_not]
  intro e
  exact h (List.mem_map.2 ⟨p, hp, e⟩)

end AMap
end Verif
