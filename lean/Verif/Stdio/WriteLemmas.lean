import Verif.Stdio.WriteModel

/-!
Helper lemmas for C12: invariants of the write queue.
-/

namespace Verif.Stdio
open Framer

/-- The bytes of the frame in the writer's hands that are still to be written. -/
def W.rest (s : W) : Bytes :=
  match s.cur with
  | some (f, t) => f.drop t
  | none => []

/-- The bytes accounted for: the queued frames and the whole frame in the writer's hands. -/
def W.owed (s : W) : Nat :=
  s.queue.flatten.length + (match s.cur with | some (f, _) => f.length | none => 0)

/-- Concatenation of the frames of payloads. -/
def wire (ps : List Bytes) : Bytes := (ps.map encode).flatten

/-- Invariant of every execution. -/
structure W.Inv (s : W) : Prop where
  count : s.queuedBytes = s.owed
  ordered : s.connected = true → s.out ++ s.rest ++ s.queue.flatten = wire s.accepted
  pre : s.out <+: wire s.accepted

theorem winv_init : W.init.Inv := ⟨rfl, fun _ => rfl, List.prefix_rfl⟩

theorem winv_step (s : W) (op : WOp) (h : s.Inv) : (s.step op).Inv := by
  obtain ⟨h1, h2, h3⟩ := h
  cases op with
  | enqueue p =>
    simp only [W.step, W.enqueue]
    split
    · exact ⟨h1, fun h => by simp at h, h3⟩
    · refine ⟨?_, ?_, ?_⟩
      · simp only [W.owed, List.flatten_append, List.length_append, h1]
        simp; omega
      · intro hc
        have := h2 hc
        simp only [W.rest, wire, List.map_append, List.flatten_append] at *
        rw [← this]; simp
      · simp only [wire, List.map_append, List.flatten_append]
        exact h3.trans (List.prefix_append _ _)
  | dequeue =>
    simp only [W.step, W.dequeue]
    split
    · rename_i f q hcur hq
      refine ⟨?_, ?_, h3⟩
      · simp only [W.owed, h1, hcur, hq]; simp; omega
      · intro hc
        have := h2 hc
        simp only [W.rest, hcur, hq] at *
        rw [← this]; simp
    · exact ⟨h1, h2, h3⟩
  | write k =>
    simp only [W.step, W.write]
    split
    · rename_i f t hcur
      split
      · rename_i hg
        have hr := h2 hg.1
        simp only [W.rest, hcur] at hr
        have e : (f.drop t).take (min (k + 1) (f.length - t)) ++ f.drop (t + min (k + 1) (f.length - t)) = f.drop t := by
          rw [← List.drop_drop, List.take_append_drop]
        refine ⟨?_, ?_, ?_⟩
        · simp only [W.owed, h1, hcur]
        · intro _
          simp only [W.rest]
          rw [← hr, List.append_assoc s.out, e]
        · rw [← hr]
          refine ⟨f.drop (t + min (k + 1) (f.length - t)) ++ s.queue.flatten, ?_⟩
          simp only
          rw [List.append_assoc s.out, ← List.append_assoc _ (List.drop _ f), e, List.append_assoc]
      · exact ⟨h1, h2, h3⟩
    · exact ⟨h1, h2, h3⟩
  | writeFail =>
    simp only [W.step, W.writeFail]
    split
    · split
      · exact ⟨h1, fun h => by simp at h, h3⟩
      · exact ⟨h1, h2, h3⟩
    · exact ⟨h1, h2, h3⟩
  | finish =>
    simp only [W.step, W.finish]
    split
    · rename_i f t hcur
      split
      · exact ⟨h1, h2, h3⟩
      · rename_i hg
        have ho : s.queuedBytes = s.queue.flatten.length + f.length := by
          rw [h1]; simp only [W.owed, hcur]
        refine ⟨?_, ?_, h3⟩
        · simp only [W.owed]
          rw [if_pos (by omega)]; omega
        · intro hc
          have := h2 hc
          simp only at hc
          have ht : f.length ≤ t := by
            by_cases hlt : t < f.length
            · exact absurd ⟨hc, hlt⟩ hg
            · omega
          simp only [W.rest, hcur, List.drop_eq_nil_of_le ht] at *
          exact this
    · exact ⟨h1, h2, h3⟩
  | disconnect => exact ⟨h1, fun h => by simp [W.step] at h, h3⟩
  | setMax n => exact ⟨h1, h2, h3⟩

theorem winv_run (ops : List WOp) : ∀ (s : W), s.Inv → (s.run ops).Inv := by
  induction ops with
  | nil => intro s h; exact h
  | cons op ops ih => intro s h; exact ih _ (winv_step s op h)

/-- With the limit never configured above `B`, the counter stays within `B`. -/
theorem bound_run (B : Nat) (ops : List WOp) (hB : ∀ n, WOp.setMax n ∈ ops → n ≤ B) (h1 : 1 ≤ B) :
    ∀ (s : W), s.maxBytes ≤ B → s.queuedBytes ≤ B → (s.run ops).queuedBytes ≤ B := by
  induction ops with
  | nil => intro s _ h; exact h
  | cons op ops ih =>
    intro s hm hq
    have hB' : ∀ n, WOp.setMax n ∈ ops → n ≤ B := fun n hn => hB n (by simp [hn])
    refine ih hB' (s.step op) ?_ ?_
    · cases op with
      | enqueue p => simp only [W.step, W.enqueue]; split <;> exact hm
      | dequeue => simp only [W.step, W.dequeue]; split <;> exact hm
      | write k => simp only [W.step, W.write]; split <;> (try split) <;> exact hm
      | writeFail => simp only [W.step, W.writeFail]; split <;> (try split) <;> exact hm
      | finish => simp only [W.step, W.finish]; split <;> (try split) <;> exact hm
      | disconnect => exact hm
      | setMax n =>
        simp only [W.step]
        have := hB n (by simp)
        split <;> omega
    · cases op with
      | enqueue p =>
        simp only [W.step, W.enqueue]
        split
        · exact hq
        · simp only; omega
      | dequeue => simp only [W.step, W.dequeue]; split <;> exact hq
      | write k => simp only [W.step, W.write]; split <;> (try split) <;> exact hq
      | writeFail => simp only [W.step, W.writeFail]; split <;> (try split) <;> exact hq
      | finish =>
        simp only [W.step, W.finish]
        split
        · split
          · exact hq
          · simp only; split <;> omega
        · exact hq
      | disconnect => exact hq
      | setMax n => exact hq

end Verif.Stdio
