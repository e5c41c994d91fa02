import Verif.Stdio.ReadModel
import Verif.Framer.Props

/-!
C56: what the peer wrote before closing its end is delivered. False of the code when the hang-up is noticed before the last bytes
are read.
-/

namespace Verif.Stdio
open Framer

/-- While the peer's end is open, what was read and what is still in the pipe together are what was written. -/
structure Pipe.Inv (max : Nat) (stay : List Bytes → Bool) (s : Pipe) : Prop where
  fed : ∃ cs : List Bytes, s.reader.connected = true →
    s.reader = feedAll max stay cs ∧ cs.flatten ++ s.avail = s.written

theorem feedAll_snoc (max : Nat) (stay : List Bytes → Bool) (cs : List Bytes) (c : Bytes) :
    feedAll max stay (cs ++ [c]) = feed max stay (feedAll max stay cs) c := by simp [feedAll]

theorem pipe_inv_step (max : Nat) (stay : List Bytes → Bool) (s : Pipe) (op : PipeOp) (h : s.Inv max stay) :
    (s.step max stay op).Inv max stay := by
  obtain ⟨cs, h⟩ := h
  cases op with
  | peerWrite bs =>
    simp only [Pipe.step]
    split
    · exact ⟨cs, h⟩
    · refine ⟨cs, fun hc => ?_⟩
      obtain ⟨h1, h2⟩ := h hc
      refine ⟨h1, ?_⟩
      simp only
      rw [← h2, List.append_assoc]
  | peerClose => exact ⟨cs, h⟩
  | iterate e =>
    simp only [Pipe.step, Pipe.iterate]
    split
    · exact ⟨cs, h⟩
    · split
      · cases e
        · exact ⟨cs, h⟩
        · exact ⟨cs, fun hc => by simp at hc⟩
      · split
        · exact ⟨cs, h⟩
        · rename_i hcon _ _
          obtain ⟨h1, h2⟩ := h (by simpa using hcon)
          refine ⟨cs ++ [s.avail.take 4096], fun _ => ⟨?_, ?_⟩⟩
          · simp only; rw [feedAll_snoc, ← h1]
          · simp only [List.flatten_append, List.flatten_cons, List.flatten_nil, List.append_nil]
            rw [List.append_assoc, List.take_append_drop, h2]

theorem pipe_inv_run (max : Nat) (stay : List Bytes → Bool) (ops : List PipeOp) :
    ∀ (s : Pipe), s.Inv max stay → (s.run max stay ops).Inv max stay := by
  induction ops with
  | nil => intro s h; exact h
  | cons op ops ih => intro s h; exact ih _ (pipe_inv_step max stay s op h)

theorem pipe_inv_init (max : Nat) (stay : List Bytes → Bool) : Pipe.init.Inv max stay :=
  ⟨[], fun _ => ⟨rfl, rfl⟩⟩

end Verif.Stdio

namespace Verif
open Framer Stdio

/-- C56. In every history of peer writes and loop iterations: if the reader is still connected and has emptied the pipe, it has delivered
exactly the messages of everything the peer wrote (the same as reading it in one go). -/
theorem C56_emptied_pipe_delivered_partial (max : Nat) (stay : List Bytes → Bool) (ops : List PipeOp)
    (hc : (Pipe.init.run max stay ops).reader.connected = true) (ha : (Pipe.init.run max stay ops).avail = []) :
    (Pipe.init.run max stay ops).reader.delivered =
      (feedAll max stay [(Pipe.init.run max stay ops).written]).delivered := by
  obtain ⟨cs, h⟩ := pipe_inv_run max stay ops _ (pipe_inv_init max stay)
  obtain ⟨h1, h2⟩ := h hc
  rw [h1]
  refine (C09_chunk_independent max stay cs _ ?_).1
  rw [ha, List.append_nil] at h2
  simp [h2]

/-- C56. While the peer keeps its end open and the application stays connected, iterating empties the pipe. -/
theorem C56_open_pipe_is_emptied (max : Nat) (ops : List PipeOp)
    (hh : (Pipe.init.run max (fun _ => true) ops).hup = false) :
    ∃ k, ((Pipe.init.run max (fun _ => true) ops).run max (fun _ => true) (List.replicate k (.iterate false))).avail = [] ∨
      ((Pipe.init.run max (fun _ => true) ops).run max (fun _ => true) (List.replicate k (.iterate false))).reader.connected = false := by
  generalize Pipe.init.run max (fun _ => true) ops = s at *
  have : ∀ (m : Nat) (s : Pipe), s.hup = false → s.avail.length ≤ m →
      ∃ k, (s.run max (fun _ => true) (List.replicate k (.iterate false))).avail = [] ∨
        (s.run max (fun _ => true) (List.replicate k (.iterate false))).reader.connected = false := by
    intro m
    induction m with
    | zero =>
      intro s _ hl
      exact ⟨0, Or.inl (List.length_eq_zero_iff.1 (Nat.le_zero.1 hl))⟩
    | succ m ih =>
      intro s hh hl
      by_cases hcn : s.reader.connected = false
      · exact ⟨0, Or.inr hcn⟩
      by_cases hav : s.avail = []
      · exact ⟨0, Or.inl hav⟩
      have hst : s.step max (fun _ => true) (.iterate false) =
          { s with avail := s.avail.drop 4096, reader := feed max (fun _ => true) s.reader (s.avail.take 4096) } := by
        simp only [Pipe.step, Pipe.iterate, if_neg hcn, hh, if_neg hav]
        simp
      have hpos : 0 < s.avail.length := List.length_pos_iff.2 hav
      obtain ⟨k, hk⟩ := ih (s.step max (fun _ => true) (.iterate false)) (by rw [hst]; exact hh)
        (by rw [hst]; simp only [List.length_drop]; omega)
      refine ⟨k + 1, ?_⟩
      simpa [Pipe.run, List.replicate_succ] using hk
  exact this _ s hh (Nat.le_refl _)

example : (Pipe.init.run 100 (fun _ => true) [.peerWrite (encode (lit "{}")), .iterate false, .peerClose]).reader.delivered = [lit "{}"] ∧
    (Pipe.init.run 100 (fun _ => true) [.peerWrite (encode (lit "{}")), .iterate false, .peerClose]).avail = [] := by decide +kernel

/-- C56 is false of the code: a peer that writes a complete message and closes its end before the reader's next iteration is never heard,
however often the loop iterates. -/
theorem C56_hangup_loses_data_counterexample (its : List Bool) :
    (Pipe.init.run 100 (fun _ => true) ([.peerWrite (encode (lit "{}")), .peerClose] ++ its.map PipeOp.iterate)).reader.delivered = [] := by
  have key : ∀ (its : List Bool) (s : Pipe), s.hup = true →
      (s.run 100 (fun _ => true) (its.map PipeOp.iterate)).reader.delivered = s.reader.delivered := by
    intro its
    induction its with
    | nil => intro s _; rfl
    | cons e its ih =>
      intro s hh
      have hs : (s.step 100 (fun _ => true) (.iterate e)).hup = true ∧
          (s.step 100 (fun _ => true) (.iterate e)).reader.delivered = s.reader.delivered := by
        simp only [Pipe.step, Pipe.iterate, hh]
        split
        · exact ⟨hh, rfl⟩
        · cases e <;> simp
      simp only [List.map_cons, Pipe.run, List.foldl_cons]
      exact (ih _ hs.1).trans hs.2
  have h1 : Pipe.init.run 100 (fun _ => true) ([.peerWrite (encode (lit "{}")), .peerClose] ++ its.map PipeOp.iterate) =
      (Pipe.init.run 100 (fun _ => true) [.peerWrite (encode (lit "{}")), .peerClose]).run 100 (fun _ => true) (its.map PipeOp.iterate) := by
    simp [Pipe.run]
  rw [h1, key its _ (by rfl)]
  rfl

end Verif
