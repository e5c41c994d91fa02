import Verif.Http.Sessions

/-!
C127, the HTTP server's part: the sessions of src/mcp/HTTPServer.cpp 61-77, 150-224 and what is queued for them.
-/

namespace Verif.Http

variable {D : Type} [DblFmt D]

/-- Specification: session `sid` was created, and has been neither removed nor swept away by `Stop` since. The latest operation comes first. -/
def Opened : List (HsOp D) → Bytes → Prop
  | [], _ => False
  | op :: h, sid => (∃ v, op = .create sid v) ∨ (Opened h sid ∧ op ≠ .remove sid ∧ op ≠ .stop)

theorem keys_advance (s : Hs D) (c : Nat) : (s.advance c).table = s.table := by
  unfold Hs.advance; split <;> rfl

theorem keys_pump (s : Hs D) (k : Nat) (ok : Bool) : (s.pump k ok).table = s.table := by
  unfold Hs.pump; split
  · rfl
  · split
    · rfl
    · split
      · rfl
      · split <;> rfl

theorem opened_iff (h : List (HsOp D)) (sid : Bytes) : sid ∈ AMap.keys (Hs.init.run h.reverse).table ↔ Opened h sid := by
  induction h with
  | nil => simp [Hs.run, Hs.init, AMap.keys, Opened]
  | cons op h ih =>
    have e : Hs.init.run (op :: h).reverse = (Hs.init.run h.reverse).step op := by
      rw [List.reverse_cons]; unfold Hs.run; rw [List.foldl_append]; rfl
    rw [e]
    generalize Hs.init.run h.reverse = s at *
    have same : ∀ s' : Hs D, s'.table = s.table → (∀ v, op ≠ .create sid v) → op ≠ .remove sid → op ≠ .stop →
        (sid ∈ AMap.keys s'.table ↔ Opened (op :: h) sid) := by
      intro s' e h1 h2 h3
      rw [e, ih]
      constructor
      · exact fun ho => .inr ⟨ho, h2, h3⟩
      · rintro (⟨v, rfl⟩ | ⟨ho, -, -⟩)
        · exact absurd rfl (h1 v)
        · exact ho
    cases op with
    | create i v =>
      simp only [Hs.step, Hs.create, AMap.mem_keys_put, ih, Opened, HsOp.create.injEq]
      constructor
      · rintro (rfl | ho)
        · exact .inl ⟨v, rfl, rfl⟩
        · exact .inr ⟨ho, by simp, by simp⟩
      · rintro (⟨w, rfl, -⟩ | ⟨ho, -, -⟩)
        · exact .inl rfl
        · exact .inr ho
    | remove i =>
      have hk : sid ∈ AMap.keys (s.remove i).table ↔ sid ∈ AMap.keys s.table ∧ sid ≠ i := by
        unfold Hs.remove
        split
        · rename_i hn
          constructor
          · intro hm
            refine ⟨hm, ?_⟩
            rintro rfl
            exact AMap.get_none_iff.1 hn hm
          · exact fun hm => hm.1
        · exact AMap.mem_keys_del
      simp only [Hs.step, hk, ih, Opened]
      constructor
      · rintro ⟨ho, hne⟩
        exact .inr ⟨ho, by simpa using fun h => hne h.symm, by simp⟩
      · rintro (⟨w, hw⟩ | ⟨ho, hne, -⟩)
        · cases hw
        · exact ⟨ho, fun h => hne (h ▸ rfl)⟩
    | stop =>
      simp [Hs.step, Hs.stop, AMap.keys, Opened]
    | take m => exact same _ rfl (by simp) (by simp) (by simp)
    | advance c => exact same _ (keys_advance s c) (by simp) (by simp) (by simp)
    | find i => exact same _ rfl (by simp) (by simp) (by simp)
    | answer f r => exact same _ (by simp only [Hs.step, Hs.answer]; split <;> rfl) (by simp) (by simp) (by simp)
    | openStream f => exact same _ (by simp only [Hs.step, Hs.openStream]; split <;> rfl) (by simp) (by simp) (by simp)
    | pump k ok => exact same _ (keys_pump s k ok) (by simp) (by simp) (by simp)

theorem table_nodup (h : List (HsOp D)) : (AMap.keys (Hs.init.run h.reverse).table).Nodup := by
  induction h with
  | nil => simp [Hs.run, Hs.init, AMap.keys]
  | cons op h ih =>
    have e : Hs.init.run (op :: h).reverse = (Hs.init.run h.reverse).step op := by
      rw [List.reverse_cons]; unfold Hs.run; rw [List.foldl_append]; rfl
    rw [e]
    generalize Hs.init.run h.reverse = s at *
    cases op with
    | create i v => exact AMap.nodup_put _ _ ih
    | remove i =>
      simp only [Hs.step, Hs.remove]; split
      · exact ih
      · exact AMap.nodup_del _ ih
    | stop => simp [Hs.step, Hs.stop, AMap.keys]
    | take m => exact ih
    | advance c => simp only [Hs.step]; rw [keys_advance]; exact ih
    | find i => exact ih
    | answer f r => simp only [Hs.step, Hs.answer]; split <;> exact ih
    | openStream f => simp only [Hs.step, Hs.openStream]; split <;> exact ih
    | pump k ok => simp only [Hs.step]; rw [keys_pump]; exact ih

/-- In every execution the HTTP server keeps the sessions that were opened and have been neither removed by their client nor ended by `Stop`: exactly those. -/
theorem C127_sessions (h : List (HsOp D)) (sid : Bytes) : (Hs.init.run h.reverse).lookup sid ≠ none ↔ Opened h sid := by
  rw [← opened_iff]
  unfold Hs.lookup
  constructor
  · intro hn
    refine Classical.byContradiction fun hm => hn (AMap.get_none_iff.2 hm)
  · intro hm hn
    exact AMap.get_none_iff.1 hn hm

example : Opened ([.stop, .create ['a'] []] : List (HsOp Empty)) ['a'] → False := by
  simp [Opened]

example : Opened ([.remove ['b'], .create ['b'] [], .create ['a'] []] : List (HsOp Empty)) ['a'] := .inr ⟨.inr ⟨.inl ⟨[], rfl⟩, by simp, by simp⟩, by simp, by simp⟩

/-- `Stop` leaves no session. -/
theorem C127_stopped (h : List (HsOp D)) : (Hs.init.run (.stop :: h).reverse).table = [] := by
  rw [List.reverse_cons]; unfold Hs.run; rw [List.foldl_append]; rfl

example : (Hs.init.run ([.create ['a'] []] : List (HsOp D))).table ≠ [] := by simp [Hs.run, Hs.step, Hs.create, AMap.put]

/-- Clients that go away without asking for their session to be removed leave it for as long as the server runs: however many sessions with different ids are opened, they are all there. -/
theorem C127_abandoned_sessions_counterexample (ids : List Bytes) (hn : ids.Nodup) :
    (Hs.init.run (ids.map fun i => (.create i [] : HsOp D))).table.length = ids.length := by
  suffices ∀ (s : Hs D), (∀ i ∈ ids, i ∉ AMap.keys s.table) →
      (s.run (ids.map fun i => (.create i [] : HsOp D))).table.length = s.table.length + ids.length by
    simpa [Hs.init] using this Hs.init (by intro i _; simp [Hs.init, AMap.keys])
  induction ids with
  | nil => intro s _; rfl
  | cons i ids ih =>
    intro s hs
    have h1 : i ∉ AMap.keys s.table := hs i List.mem_cons_self
    have := ih (List.nodup_cons.1 hn).2 (s.create i []) (by
      intro j hj hm
      simp only [Hs.create, AMap.mem_keys_put] at hm
      rcases hm with rfl | hm
      · exact (List.nodup_cons.1 hn).1 hj
      · exact hs j (List.mem_cons_of_mem _ hj) hm)
    rw [List.map_cons]
    show ((s.create i []).run _).table.length = _
    rw [this]
    simp only [Hs.create, AMap.put, AMap.del_of_not_mem h1, List.length_append, List.length_cons, List.length_nil]
    omega

example : ([['a'], ['b'], ['c']] : List Bytes).Nodup := by decide

/-- One notification sent to the active session, the `c`-th send. -/
def sendNote (n : Notification D) (c : Nat) : List (HsOp D) := [.take (.note n), .advance c]

/-- What the server sends to a session no stream is open for is kept for as long as the session is: however many notifications, they are all queued. -/
theorem C127_unread_counterexample (sid v : Bytes) (n : Notification D) (k : Nat) :
    ((Hs.init.run (.create sid v :: (List.range k).flatMap (sendNote n))).objs[0]?).map (fun x => (x.queue.length, x.closed)) = some (k, false) := by
  suffices ∀ k, ∃ x : Sess D, let s := Hs.init.run (.create sid v :: (List.range k).flatMap (sendNote n))
      s.objs = [x] ∧ s.activeObj = some 0 ∧ s.sends.length = k ∧ x.queue.length = k ∧ x.closed = false by
    obtain ⟨x, h1, -, -, h2, h3⟩ := this k
    rw [h1]; simp [h2, h3]
  intro k
  induction k with
  | zero => exact ⟨Sess.fresh v, rfl, by simp [Hs.run, Hs.step, Hs.create, Hs.activeObj, Hs.init, AMap.get_put_self], rfl, rfl, rfl⟩
  | succ k ih =>
    obtain ⟨x, h1, h2, h3, h4, h5⟩ := ih
    have e : Hs.init.run (.create sid v :: (List.range (k + 1)).flatMap (sendNote n)) =
        (Hs.init.run (.create sid v :: (List.range k).flatMap (sendNote n))).run (sendNote n k) := by
      rw [List.range_succ, List.flatMap_append, ← List.cons_append]
      unfold Hs.run
      rw [List.foldl_append]; simp
    rw [e]
    generalize Hs.init.run (.create sid v :: (List.range k).flatMap (sendNote n)) = s at *
    have hl : (s.sends ++ [SendStage.found 0 (.note n)])[k]? = some (.found 0 (.note n)) := by rw [← h3]; simp
    have e1 : s.run (sendNote n k) = { s with objs := s.objs.modify 0 (·.push (serNotification n)), sends := (s.sends ++ [SendStage.found 0 (.note n)]).set k .finished } := by
      show (s.take (.note n)).advance k = _
      simp only [Hs.take, h2, Hs.advance, hl]
    rw [e1]
    exact ⟨x.push (serNotification n), by simp [h1], h2, by simp [h3], by simp [Sess.push, h4], h5⟩

example : (sendNote (⟨lit "m", none⟩ : Notification Empty) 0).length = 2 := by decide

end Verif.Http
