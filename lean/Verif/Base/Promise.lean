import Verif.Base.AMap

/-!
The promise table every transport of the library keeps: a map from request id text to a pending promise, and the futures
handed to callers. Futures are numbered in creation order; `outcomes` lists completions in order, `sent` is a history variable
(future, key) of every insertion.
-/

namespace Verif

/-- A table of promises with outcomes of type `O`. -/
structure PTab (O : Type) where
  pending : List (Bytes × Nat)
  outcomes : List (Nat × O)
  nextFut : Nat
  sent : List (Nat × Bytes)

namespace PTab

variable {O : Type}

def init : PTab O := ⟨[], [], 0, []⟩

/-- `pending[key] = std::move(promise)` for a new promise; a promise already stored there is destroyed, completing its future
with `broken` (`std::future_errc::broken_promise`). -/
def insert (t : PTab O) (key : Bytes) (broken : O) : PTab O :=
  { pending := AMap.put t.pending key t.nextFut
    outcomes := match AMap.get t.pending key with
      | some old => t.outcomes ++ [(old, broken)]
      | none => t.outcomes
    nextFut := t.nextFut + 1
    sent := t.sent ++ [(t.nextFut, key)] }

/-- A promise completed before its future is returned. -/
def immediate (t : PTab O) (o : O) : PTab O :=
  { t with outcomes := t.outcomes ++ [(t.nextFut, o)], nextFut := t.nextFut + 1 }

/-- `find(key)`; if present `set_value(o)` and `erase`. -/
def complete (t : PTab O) (key : Bytes) (o : O) : PTab O :=
  match AMap.get t.pending key with
  | some n => { t with pending := AMap.del t.pending key, outcomes := t.outcomes ++ [(n, o)] }
  | none => t

/-- Completing everything and clearing the table. -/
def closeAll (t : PTab O) (f : Bytes → O) : PTab O :=
  { t with pending := [], outcomes := t.outcomes ++ t.pending.map (fun p => (p.2, f p.1)) }

/-- Every future is in exactly one place. -/
def all (t : PTab O) : List Nat := t.pending.map (·.2) ++ t.outcomes.map (·.1)

/-- `Ok o k`: outcome `o` fits a request filed under `k`; `Free o`: `o` needs no filing. -/
structure Inv (Ok : O → Bytes → Prop) (Free : O → Prop) (t : PTab O) : Prop where
  keys : (AMap.keys t.pending).Nodup
  conserve : t.all.Perm (List.range t.nextFut)
  pend : ∀ k n, (k, n) ∈ t.pending → (n, k) ∈ t.sent
  sentBound : ∀ x ∈ t.sent, x.1 < t.nextFut
  sentFun : (t.sent.map (·.1)).Nodup
  fits : ∀ n o, (n, o) ∈ t.outcomes → Free o ∨ ∃ k, (n, k) ∈ t.sent ∧ Ok o k

variable {Ok : O → Bytes → Prop} {Free : O → Prop} {t : PTab O}

theorem map_snd_del' {K V : Type} [DecidableEq K] {m : List (K × V)} {k : K} {v : V} (hn : (AMap.keys m).Nodup)
    (h : AMap.get m k = some v) : (m.map (·.2)).Perm (v :: (AMap.del m k).map (·.2)) := by
  induction m with
  | nil => cases h
  | cons p m ih =>
    simp only [AMap.keys, List.map_cons, List.nodup_cons] at hn
    rw [AMap.get_cons] at h
    split at h
    · rename_i hp
      simp only [Option.some.injEq] at h
      have hd : AMap.del (p :: m) k = m := by
        have : AMap.del m k = m := AMap.del_of_not_mem (by rw [← hp]; exact hn.1)
        unfold AMap.del at *
        rw [List.filter_cons, if_neg (by simp [hp]), this]
      rw [hd, List.map_cons, h]
    · rename_i hp
      have hd : AMap.del (p :: m) k = p :: AMap.del m k := by
        unfold AMap.del
        rw [List.filter_cons, if_pos (by simp [hp])]
      rw [hd, List.map_cons, List.map_cons]
      exact ((ih hn.2 h).cons _).trans (List.Perm.swap _ _ _)

theorem inv_init : (init : PTab O).Inv Ok Free := by
  constructor <;> simp [init, all, AMap.keys]

theorem Inv.nodup (h : t.Inv Ok Free) : t.all.Nodup := h.conserve.nodup_iff.2 List.nodup_range

/-- Each future completes at most once. -/
theorem Inv.once (h : t.Inv Ok Free) : (t.outcomes.map (·.1)).Nodup := (List.nodup_append.1 h.nodup).2.1

/-- A pending future is not complete. -/
theorem Inv.pending_open (h : t.Inv Ok Free) {k : Bytes} {n : Nat} (hp : (k, n) ∈ t.pending) :
    n ∉ t.outcomes.map (·.1) := by
  intro hm
  exact (List.nodup_append.1 h.nodup).2.2 n (List.mem_map.2 ⟨_, hp, rfl⟩) n hm rfl

/-- Every future created is pending or complete. -/
theorem Inv.accounted (h : t.Inv Ok Free) {n : Nat} (hn : n < t.nextFut) :
    (∃ k, (k, n) ∈ t.pending) ∨ n ∈ t.outcomes.map (·.1) := by
  have := h.conserve.mem_iff.2 (List.mem_range.2 hn)
  simp only [all, List.mem_append] at this
  rcases this with h1 | h1
  · obtain ⟨⟨k, m⟩, h2, rfl⟩ := List.mem_map.1 h1; exact .inl ⟨k, h2⟩
  · exact .inr h1

theorem inv_insert (h : t.Inv Ok Free) (key : Bytes) {broken : O} (hb : Free broken) :
    (t.insert key broken).Inv Ok Free := by
  have hnew : t.nextFut ∉ t.sent.map (·.1) := by
    intro hm; obtain ⟨x, hx, e⟩ := List.mem_map.1 hm
    have := h.sentBound x hx; omega
  have hdel : (AMap.put t.pending key t.nextFut).map (·.2) = (AMap.del t.pending key).map (·.2) ++ [t.nextFut] := by
    simp [AMap.put]
  unfold insert
  refine ⟨AMap.nodup_put _ _ h.keys, ?_, ?_, ?_, ?_, ?_⟩
  · unfold all; simp only
    rw [hdel, List.range_succ]
    cases hg : AMap.get t.pending key with
    | none =>
      have : AMap.del t.pending key = t.pending := AMap.del_of_not_mem (AMap.get_none_iff.1 hg)
      rw [this]; simp only
      refine List.Perm.trans ?_ (h.conserve.append_right _)
      unfold all
      rw [List.append_assoc, List.append_assoc]
      exact List.Perm.append_left _ List.perm_append_comm
    | some old =>
      simp only [List.map_append, List.map_cons, List.map_nil]
      have hp := map_snd_del' h.keys hg
      refine List.Perm.trans ?_ (h.conserve.append_right _)
      unfold all
      refine List.Perm.trans ?_ ((hp.symm.append_right _).append_right _)
      simp only [List.append_assoc, List.cons_append, List.nil_append]
      refine List.Perm.trans ?_ List.perm_middle
      refine List.Perm.append_left _ ?_
      exact ((List.perm_append_singleton _ _).cons _).trans
        ((List.Perm.swap _ _ _).trans ((List.perm_append_singleton _ _).symm.cons _))
  · intro k n hk
    rcases List.mem_append.1 hk with h1 | h1
    · exact List.mem_append_left _ (h.pend k n (AMap.mem_del.1 h1).1)
    · simp at h1; simp [h1]
  · intro x hx
    rcases List.mem_append.1 hx with h1 | h1
    · exact Nat.lt_succ_of_lt (h.sentBound x h1)
    · simp at h1; rw [h1]; exact Nat.lt_succ_self _
  · rw [List.map_append]
    refine List.nodup_append.2 ⟨h.sentFun, by simp, ?_⟩
    intro a ha b hb; simp at hb; subst hb
    intro e; subst e; exact hnew ha
  · intro n o ho
    have : (n, o) ∈ t.outcomes ∨ o = broken := by
      revert ho; cases AMap.get t.pending key with
      | none => exact .inl
      | some old =>
        intro ho
        rcases List.mem_append.1 ho with h1 | h1
        · exact .inl h1
        · simp at h1; exact .inr h1.2
    rcases this with h1 | h1
    · rcases h.fits n o h1 with h2 | ⟨k, h2, h3⟩
      · exact .inl h2
      · exact .inr ⟨k, List.mem_append_left _ h2, h3⟩
    · exact .inl (h1 ▸ hb)

theorem inv_immediate (h : t.Inv Ok Free) {o : O} (hf : Free o) : (t.immediate o).Inv Ok Free := by
  unfold immediate
  refine ⟨h.keys, ?_, h.pend, fun x hx => Nat.lt_succ_of_lt (h.sentBound x hx), h.sentFun, ?_⟩
  · unfold all; simp only [List.map_append, List.map_cons, List.map_nil]
    rw [List.range_succ, ← List.append_assoc]
    exact h.conserve.append_right _
  · intro n o' ho
    rcases List.mem_append.1 ho with h1 | h1
    · exact h.fits n o' h1
    · simp at h1; exact .inl (h1.2 ▸ hf)

theorem inv_complete (h : t.Inv Ok Free) (key : Bytes) {o : O} (hf : Free o ∨ Ok o key) :
    (t.complete key o).Inv Ok Free := by
  unfold complete
  cases hg : AMap.get t.pending key with
  | none => exact h
  | some n =>
    refine ⟨AMap.nodup_del _ h.keys, ?_, fun k m hk => h.pend k m (AMap.mem_del.1 hk).1, h.sentBound, h.sentFun, ?_⟩
    · refine List.Perm.trans ?_ h.conserve
      have hp := map_snd_del' h.keys hg
      unfold all
      simp only [List.map_append, List.map_cons, List.map_nil]
      refine List.Perm.trans ?_ (hp.symm.append_right _)
      rw [List.cons_append, ← List.append_assoc]
      exact List.perm_append_singleton _ _
    · intro m o' ho
      rcases List.mem_append.1 ho with h1 | h1
      · exact h.fits m o' h1
      · simp at h1; obtain ⟨rfl, rfl⟩ := h1
        rcases hf with hf | hf
        · exact .inl hf
        · exact .inr ⟨key, h.pend _ _ (AMap.get_some_mem hg), hf⟩

theorem inv_closeAll (h : t.Inv Ok Free) {f : Bytes → O} (hf : ∀ k, Free (f k) ∨ Ok (f k) k) :
    (t.closeAll f).Inv Ok Free := by
  unfold closeAll
  refine ⟨by simp [AMap.keys], ?_, by simp, h.sentBound, h.sentFun, ?_⟩
  · refine List.Perm.trans ?_ h.conserve
    unfold all
    simp only [List.map_nil, List.nil_append, List.map_append, List.map_map]
    exact List.perm_append_comm
  · intro m o' ho
    rcases List.mem_append.1 ho with h1 | h1
    · exact h.fits m o' h1
    · obtain ⟨⟨k, n⟩, h2, h3⟩ := List.mem_map.1 h1
      simp only [Prod.mk.injEq] at h3
      obtain ⟨rfl, rfl⟩ := h3
      rcases hf k with hf | hf
      · exact .inl hf
      · exact .inr ⟨k, h.pend _ _ h2, hf⟩

/-- The completing step really completes the future filed under the key. -/
theorem complete_outcome {key : Bytes} {n : Nat} {o : O} (hg : AMap.get t.pending key = some n) :
    (n, o) ∈ (t.complete key o).outcomes := by
  simp [complete, hg]

theorem complete_other {key key' : Bytes} {o : O} (hne : key' ≠ key) :
    AMap.get (t.complete key o).pending key' = AMap.get t.pending key' := by
  unfold complete; split
  · exact AMap.get_del_ne _ hne
  · rfl

theorem complete_pending_sub {key : Bytes} {o : O} {x : Bytes × Nat} (h : x ∈ (t.complete key o).pending) :
    x ∈ t.pending := by
  unfold complete at h; split at h
  · exact (AMap.mem_del.1 h).1
  · exact h

theorem complete_sent (key : Bytes) (o : O) : (t.complete key o).sent = t.sent := by
  unfold complete; split <;> rfl

end PTab

end Verif
