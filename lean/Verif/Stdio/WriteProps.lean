import Verif.Stdio.WriteLemmas
import Verif.Framer.Props

/-!
C12: the stdio write queue is bounded and ordered.
-/

namespace Verif
open Framer Stdio

/-- C12. In every execution the byte counter is exactly the size of the frames not yet completely written, and it never
exceeds a bound that no configured limit exceeds (the default limit is 2 MiB). -/
theorem C12_bounded (ops : List WOp) (B : Nat) (hB : 2 * 1024 * 1024 ≤ B) (hset : ∀ n, WOp.setMax n ∈ ops → n ≤ B) :
    let s := W.init.run ops
    s.queuedBytes = s.queue.flatten.length + (match s.cur with | some (f, _) => f.length | none => 0) ∧
      s.queuedBytes ≤ B :=
  ⟨(winv_run ops _ winv_init).count, bound_run B ops hset (by omega) _ hB (Nat.zero_le _)⟩

/-- C12. In every execution what has reached the pipe is a prefix of the frames of the accepted messages in the order in which
they were accepted: no byte is lost in the middle, duplicated, reordered or interleaved, even after an overflow, a write error or a
disconnect. -/
theorem C12_ordered_prefix (ops : List WOp) :
    (W.init.run ops).out <+: ((W.init.run ops).accepted.map encode).flatten :=
  (winv_run ops _ winv_init).pre

/-- C12. Nothing accepted is dropped while connected: once the writer is idle, everything accepted has been written. -/
theorem C12_idle_complete (ops : List WOp) (hc : (W.init.run ops).connected = true)
    (hq : (W.init.run ops).queue = []) (hcur : (W.init.run ops).cur = none) :
    (W.init.run ops).out = ((W.init.run ops).accepted.map encode).flatten := by
  have := (winv_run ops _ winv_init).ordered hc
  simpa [W.rest, hq, hcur, wire] using this

/-- C12. A send that would exceed the limit is refused: nothing is queued or counted, the error is reported and the transport is
disconnected. Any other send is accepted. -/
theorem C12_overflow_refused (s : W) (p : Bytes) :
    (s.queuedBytes + (encode p).length > s.maxBytes →
      (s.enqueue p).2 = false ∧ (s.enqueue p).1.queue = s.queue ∧ (s.enqueue p).1.queuedBytes = s.queuedBytes ∧
      (s.enqueue p).1.accepted = s.accepted ∧
      (s.enqueue p).1.overflowErrors = s.overflowErrors + 1 ∧ (s.enqueue p).1.connected = false) ∧
    (s.queuedBytes + (encode p).length ≤ s.maxBytes →
      (s.enqueue p).2 = true ∧ (s.enqueue p).1.queue = s.queue ++ [encode p] ∧
      (s.enqueue p).1.overflowErrors = s.overflowErrors ∧ (s.enqueue p).1.connected = s.connected) := by
  constructor
  · intro h; simp only [W.enqueue, if_pos h]; simp
  · intro h
    have h' : ¬ (s.queuedBytes + (encode p).length > s.maxBytes) := by omega
    simp only [W.enqueue, if_neg h']; simp

/-- C12. Once disconnected, nothing more reaches the pipe. -/
theorem C12_silent_after_disconnect (s : W) (ops : List WOp) (h : s.connected = false) :
    (s.run ops).out = s.out ∧ (s.run ops).connected = false := by
  induction ops generalizing s with
  | nil => exact ⟨rfl, h⟩
  | cons op ops ih =>
    have hs : (s.step op).out = s.out ∧ (s.step op).connected = false := by
      cases op with
      | enqueue p => simp only [W.step, W.enqueue]; split <;> simp [h]
      | dequeue => simp only [W.step, W.dequeue]; split <;> simp [h]
      | write k => simp only [W.step, W.write]; split <;> simp [h]
      | writeFail => simp only [W.step, W.writeFail]; split <;> simp [h]
      | finish => simp only [W.step, W.finish]; split <;> simp [h]
      | disconnect => simp [W.step]
      | setMax n => simp [W.step, h]
    have := ih _ hs.2
    exact ⟨this.1.trans hs.1, this.2⟩

/-- C12, with the receiving side: if the writer is idle and still connected, a peer reading the pipe in any chunks gets exactly the
accepted messages, in order, once each. -/
theorem C12_end_to_end (ops : List WOp) (max : Nat) (cs : List Bytes) (hc : (W.init.run ops).connected = true)
    (hq : (W.init.run ops).queue = []) (hcur : (W.init.run ops).cur = none)
    (hmax : ∀ p ∈ (W.init.run ops).accepted, p.length ≤ max ∧ (encode p).length ≤ sizeMax)
    (hcs : cs.flatten = (W.init.run ops).out) :
    feedAll max (fun _ => true) cs =
      { buf := [], delivered := (W.init.run ops).accepted, connected := true, errors := 0 } := by
  refine C09_frames_delivered max _ [] [] cs hmax ⟨Nat.zero_le _, by decide +kernel⟩ ⟨List.nil_prefix, by decide +kernel⟩ ?_
  rw [hcs, C12_idle_complete ops hc hq hcur, List.append_nil]

/-- A concrete execution meeting the hypotheses: two sends interleaved with partial writes. -/
example :
    let ops : List WOp := [.enqueue (lit "{}"), .dequeue, .write 3, .enqueue (lit "7"), .write 99, .finish,
      .dequeue, .write 4, .write 99, .finish]
    (W.init.run ops).connected = true ∧ (W.init.run ops).queue = [] ∧ (W.init.run ops).cur = none ∧
      (W.init.run ops).accepted = [lit "{}", lit "7"] := by decide +kernel

/-- C12. The writer always catches up: from any reachable connected state, if every `write` accepts at least one byte, some
finite continuation by the writer thread alone leaves nothing unwritten. -/
theorem C12_writer_catches_up (ops : List WOp) (hc : (W.init.run ops).connected = true) :
    ∃ more : List WOp, (∀ op ∈ more, op = .dequeue ∨ op = .write 0 ∨ op = .finish) ∧
      ((W.init.run ops).run more).out = ((W.init.run ops).accepted.map encode).flatten ∧
      ((W.init.run ops).run more).queuedBytes = 0 := by
  have hinv := winv_run ops _ winv_init
  generalize W.init.run ops = s at *
  -- finish the frame in hand
  have fin : ∀ (m : Nat) (s : W), s.Inv → s.connected = true → s.rest.length ≤ m →
      ∃ more : List WOp, (∀ op ∈ more, op = .dequeue ∨ op = .write 0 ∨ op = .finish) ∧ (s.run more).Inv ∧
        (s.run more).connected = true ∧ (s.run more).cur = none ∧ (s.run more).queue = s.queue ∧
        (s.run more).accepted = s.accepted := by
    intro m
    induction m with
    | zero =>
      intro s hs hc hr
      refine ⟨[.finish], by simp, winv_step s .finish hs, ?_⟩
      simp only [W.run, List.foldl_cons, List.foldl_nil, W.step, W.finish]
      split
      · rename_i f t hcur
        simp only [W.rest, hcur, List.length_drop] at hr
        rw [if_neg (by omega)]
        simp [hc]
      · rename_i hcur; simp [hc, hcur]
    | succ m ih =>
      intro s hs hc hr
      by_cases hz : s.rest.length ≤ m
      · exact ih s hs hc hz
      · have hstep : ∃ f t, s.cur = some (f, t) ∧ t < f.length := by
          cases hcur : s.cur with
          | none => simp [W.rest, hcur] at hz
          | some p =>
            refine ⟨p.1, p.2, rfl, ?_⟩
            simp only [W.rest, hcur, List.length_drop] at hz
            omega
        obtain ⟨f, t, hcur, ht⟩ := hstep
        have hw : s.step (.write 0) = { s with out := s.out ++ (f.drop t).take (min 1 (f.length - t)), cur := some (f, t + min 1 (f.length - t)) } := by
          simp only [W.step, W.write, hcur, if_pos (And.intro hc ht)]
        have hr' : (s.step (.write 0)).rest.length ≤ m := by
          rw [hw]
          simp only [W.rest, hcur, List.length_drop] at hr ⊢
          omega
        obtain ⟨more, h1, h2, h3, h4, h5, h6⟩ := ih (s.step (.write 0)) (winv_step _ _ hs) (by rw [hw]; exact hc) hr'
        refine ⟨.write 0 :: more, ?_, h2, h3, h4, ?_, ?_⟩
        · intro op hop
          simp only [List.mem_cons] at hop
          rcases hop with rfl | hop
          · simp
          · exact h1 op hop
        · exact h5.trans (by rw [hw])
        · exact h6.trans (by rw [hw])
  have all : ∀ (n : Nat) (s : W), s.Inv → s.connected = true → s.cur = none → s.queue.length = n →
      ∃ more : List WOp, (∀ op ∈ more, op = .dequeue ∨ op = .write 0 ∨ op = .finish) ∧ (s.run more).Inv ∧
        (s.run more).connected = true ∧ (s.run more).cur = none ∧ (s.run more).queue = [] ∧
        (s.run more).accepted = s.accepted := by
    intro n
    induction n with
    | zero =>
      intro s hs hc hcur hq
      exact ⟨[], by simp, hs, hc, hcur, List.length_eq_zero_iff.1 hq, rfl⟩
    | succ n ih =>
      intro s hs hc hcur hq
      obtain ⟨f, q, hfq⟩ : ∃ f q, s.queue = f :: q := by
        cases h : s.queue with
        | nil => simp [h] at hq
        | cons f q => exact ⟨f, q, rfl⟩
      have hd : s.step .dequeue = { s with cur := some (f, 0), queue := q } := by
        simp only [W.step, W.dequeue, hcur, hfq]
      obtain ⟨m1, a1, a2, a3, a4, a5, a6⟩ := fin _ (s.step .dequeue) (winv_step _ _ hs) (by rw [hd]; exact hc) (Nat.le_refl _)
      obtain ⟨m2, b1, b2, b3, b4, b5, b6⟩ := ih _ a2 a3 a4 (by rw [a5, hd]; simp [hfq] at hq; exact hq)
      have hrun : ((s.step .dequeue).run m1).run m2 = s.run (.dequeue :: (m1 ++ m2)) := by
        simp [W.run]
      rw [hrun] at b2 b3 b4 b5 b6
      refine ⟨.dequeue :: (m1 ++ m2), ?_, b2, b3, b4, b5, ?_⟩
      · intro op hop
        simp only [List.mem_cons, List.mem_append] at hop
        rcases hop with rfl | hop | hop
        · simp
        · exact a1 op hop
        · exact b1 op hop
      · rw [b6, a6, hd]
  obtain ⟨m1, a1, a2, a3, a4, a5, a6⟩ := fin _ s hinv hc (Nat.le_refl _)
  obtain ⟨m2, b1, b2, b3, b4, b5, b6⟩ := all _ _ a2 a3 a4 rfl
  have hrun : (s.run m1).run m2 = s.run (m1 ++ m2) := by simp [W.run]
  rw [hrun] at b2 b3 b4 b5 b6
  refine ⟨m1 ++ m2, ?_, ?_, ?_⟩
  · intro op hop
    rw [List.mem_append] at hop
    rcases hop with hop | hop
    · exact a1 op hop
    · exact b1 op hop
  · have := b2.ordered b3
    simpa [W.rest, b4, b5, wire, b6, a6] using this
  · have := b2.count
    simpa [W.owed, b4, b5] using this

end Verif
