import Verif.Stdio.PendingLemmas

/-!
Specification vocabulary for C13 (ids of the requests in a history) and the invariant that links the model's
history variables to it.
-/

namespace Verif.Stdio

variable {D : Type}

/-- Specification: the ids of the requests sent, in order; the n-th `SendRequest` call owns future n. -/
def reqIds (ops : List (POp D)) : List RpcId :=
  ops.filterMap (fun op => match op with | .sendCheck id => some id | _ => none)

/-- Specification: number of the future belonging to a request has an outcome. -/
def Completed (s : P D) (n : Nat) : Prop := ∃ o, (n, o) ∈ s.outcomes

/-- Keys fit the ids the callers gave. -/
def KeyFor (id : RpcId) (k : Bytes) : Prop :=
  (idText id ≠ [] → k = idText id) ∧ (idText id = [] → ∃ c, k = lit "req-" ++ natDec c)

structure Linked (ops : List (POp D)) (s : P D) : Prop where
  next : s.nextFut = (reqIds ops).length
  checked : ∀ n id, (n, id) ∈ s.checked → (reqIds ops)[n]? = some id
  sent : ∀ n k dl, (n, k, dl) ∈ s.sent → ∃ id, (reqIds ops)[n]? = some id ∧ KeyFor id k

theorem complete_fields (s : P D) (k : Bytes) (o : Outcome D) :
    (s.complete k o).nextFut = s.nextFut ∧ (s.complete k o).checked = s.checked ∧ (s.complete k o).sent = s.sent ∧
      (s.complete k o).connected = s.connected := by
  unfold P.complete; split <;> simp

theorem sweepList_fields (now : Nat) : ∀ (ks : List Bytes) (s : P D),
    let t := ks.foldl (fun s k => s.complete k (.timeout k now)) s
    t.nextFut = s.nextFut ∧ t.checked = s.checked ∧ t.sent = s.sent ∧ t.connected = s.connected
  | [], _ => ⟨rfl, rfl, rfl, rfl⟩
  | k :: ks, s => by
    have h1 := sweepList_fields now ks (s.complete k (.timeout k now))
    have h2 := complete_fields s k (.timeout k now)
    exact ⟨h1.1.trans h2.1, h1.2.1.trans h2.2.1, h1.2.2.1.trans h2.2.2.1, h1.2.2.2.trans h2.2.2.2⟩

theorem chooseKey_for (id : RpcId) (c : Nat) : KeyFor id (chooseKey id c).1 := by
  unfold KeyFor chooseKey
  cases id with
  | str s =>
    simp only [idText]
    split
    · rename_i h; exact ⟨fun h' => absurd h h', fun _ => ⟨_, rfl⟩⟩
    · rename_i h; exact ⟨fun _ => rfl, fun h' => absurd h' h⟩
  | int i =>
    have hne : intDec i ≠ [] := chooseKey_ne_nil (.int i) 0
    exact ⟨fun _ => rfl, fun h => absurd h hne⟩
  | null => exact ⟨fun h => absurd rfl h, fun _ => ⟨_, rfl⟩⟩

theorem linked_step {ops : List (POp D)} {s : P D} (h : Linked ops s) (op : POp D) : Linked (ops ++ [op]) (s.step op) := by
  have same : ∀ t : P D, reqIds (ops ++ [op]) = reqIds ops → t.nextFut = s.nextFut → t.checked = s.checked → t.sent = s.sent →
      Linked (ops ++ [op]) t := by
    intro t h0 h1 h2 h3
    exact ⟨by rw [h1, h.next, h0], by rw [h2, h0]; exact h.checked, by rw [h3, h0]; exact h.sent⟩
  cases op with
  | sendCheck id =>
    have hr : reqIds (ops ++ [.sendCheck id]) = reqIds ops ++ [id] := by simp [reqIds]
    have hold : ∀ {n : Nat} {x : RpcId}, (reqIds ops)[n]? = some x → (reqIds ops ++ [id])[n]? = some x := by
      intro n x hx
      have hlt : n < (reqIds ops).length := (List.getElem?_eq_some_iff.1 hx).1
      rw [List.getElem?_append_left hlt]; exact hx
    simp only [P.step, P.sendCheck]
    split
    · refine ⟨?_, ?_, ?_⟩
      · rw [hr]; simp [h.next]
      · intro n id' hm
        rw [hr]
        simp only [List.mem_append, List.mem_singleton, Prod.mk.injEq] at hm
        rcases hm with hm | ⟨rfl, rfl⟩
        · exact hold (h.checked n id' hm)
        · rw [h.next]; simp
      · intro n k dl hm
        obtain ⟨x, h1, h2⟩ := h.sent n k dl hm
        exact ⟨x, by rw [hr]; exact hold h1, h2⟩
    · refine ⟨?_, ?_, ?_⟩
      · rw [hr]; simp [h.next]
      · intro n id' hm
        rw [hr]; exact hold (h.checked n id' hm)
      · intro n k dl hm
        obtain ⟨x, h1, h2⟩ := h.sent n k dl hm
        exact ⟨x, by rw [hr]; exact hold h1, h2⟩
  | sendInsert fut now =>
    have hr : reqIds (ops ++ [.sendInsert fut now]) = reqIds ops := by simp [reqIds]
    simp only [P.step, P.sendInsert, P.waiting]
    cases hw : AMap.get s.checked fut with
    | none => exact same s hr rfl rfl rfl
    | some id =>
      refine ⟨by rw [hr]; exact h.next, ?_, ?_⟩
      · intro n id' hm
        rw [hr]; exact h.checked n id' (AMap.mem_del.1 hm).1
      · intro n k dl hm
        rw [hr]
        simp only [List.mem_append, List.mem_singleton, Prod.mk.injEq] at hm
        rcases hm with hm | ⟨rfl, rfl, _⟩
        · exact h.sent n k dl hm
        · exact ⟨id, h.checked _ _ (AMap.get_some_mem hw), chooseKey_for id _⟩
  | response r =>
    have hc := complete_fields s (idText r.id) (.response r)
    exact same _ (by simp [reqIds]) hc.1 hc.2.1 hc.2.2.1
  | sweep now =>
    simp only [P.step, P.sweep]
    split
    · have hc := sweepList_fields now (s.expired now) s
      exact same _ (by simp [reqIds]) hc.1 hc.2.1 hc.2.2.1
    · exact same _ (by simp [reqIds]) rfl rfl rfl
  | disconnect => exact same _ (by simp [reqIds]) rfl rfl rfl
  | close => exact same _ (by simp [reqIds]) rfl rfl rfl
  | setTimeout t => exact same _ (by simp [reqIds]) rfl rfl rfl

theorem linked_run (ops : List (POp D)) : Linked ops ((P.init : P D).run ops) := by
  have key : ∀ (post pre : List (POp D)) (s : P D), Linked pre s → Linked (pre ++ post) (s.run post) := by
    intro post
    induction post with
    | nil => intro pre s h; simpa [P.run] using h
    | cons op post ih =>
      intro pre s h
      have := ih (pre ++ [op]) _ (linked_step h op)
      simpa [P.run] using this
  exact key ops [] _ ⟨rfl, by simp [P.init], by simp [P.init]⟩

end Verif.Stdio
