import Verif.Stdio.TimerModel

/-! C59: timeouts fire on time. -/

namespace Verif

open Stdio

namespace Stdio

theorem minDeadline_le {l : List (Bytes × Nat)} {m : Nat} (h : minDeadline l = some m) :
    (∀ p ∈ l, m ≤ p.2) ∧ ∃ p ∈ l, p.2 = m := by
  induction l generalizing m with
  | nil => cases h
  | cons q l ih =>
    simp only [minDeadline] at h
    split at h
    · rename_i hn
      cases l with
      | nil => simp at h; subst h; simp
      | cons r l => simp only [minDeadline] at hn; split at hn <;> cases hn
    · rename_i k hk
      obtain ⟨h1, p, h2, h3⟩ := ih hk
      simp only [Option.some.injEq] at h
      subst h
      refine ⟨?_, ?_⟩
      · intro r hr
        rcases List.mem_cons.1 hr with rfl | hr
        · exact Nat.min_le_left _ _
        · exact Nat.le_trans (Nat.min_le_right _ _) (h1 r hr)
      · by_cases hle : q.2 ≤ k
        · exact ⟨q, by simp, by omega⟩
        · exact ⟨p, by simp [h2], by omega⟩

theorem minDeadline_none {l : List (Bytes × Nat)} (h : minDeadline l = none) : l = [] := by
  cases l with
  | nil => rfl
  | cons q l => simp only [minDeadline] at h; split at h <;> cases h

/-- No call ever lowers the timeout. -/
def NeverLowered : Nat → List TOp → Prop
  | _, [] => True
  | t, .setTimeout t' :: l => t ≤ t' ∧ NeverLowered t' l
  | t, _ :: l => NeverLowered t l

def T.Inv (s : T) : Prop :=
  (∀ p ∈ s.deadlines, p.2 ≤ s.now + s.timeout) ∧
  (∀ t, s.wait = .until t → t ≤ s.now + s.timeout ∧ ∀ p ∈ s.deadlines, t ≤ p.2)

theorem sleep_inv {s : T} (h : ∀ p ∈ s.deadlines, p.2 ≤ s.now + s.timeout) : s.sleep.Inv := by
  refine ⟨h, ?_⟩
  intro t ht
  unfold T.sleep at ht
  cases hm : minDeadline s.deadlines with
  | none => rw [hm] at ht; cases ht
  | some m =>
    rw [hm] at ht
    simp only [Wait.until.injEq] at ht
    subst ht
    obtain ⟨h1, p, h2, h3⟩ := minDeadline_le hm
    exact ⟨h3 ▸ h p h2, h1⟩

theorem T.inv_step {s : T} (h : s.Inv) (op : TOp) (hop : ∀ t, op = .setTimeout t → s.timeout ≤ t) : (s.step op).Inv := by
  obtain ⟨h1, h2⟩ := h
  cases op with
  | advance d =>
    refine ⟨fun p hp => ?_, fun t ht => ⟨?_, (h2 t ht).2⟩⟩
    · have := h1 p hp; simp only [T.step]; omega
    · have := (h2 t ht).1; simp only [T.step]; omega
  | send key =>
    refine ⟨fun p hp => ?_, fun t ht => ⟨(h2 t ht).1, fun p hp => ?_⟩⟩
    · rcases AMap.mem_put.1 hp with h | h
      · exact h1 p h.1
      · rw [h]; exact Nat.le_refl _
    · rcases AMap.mem_put.1 hp with h | h
      · exact (h2 t ht).2 p h.1
      · rw [h]; exact (h2 t ht).1
  | answer key =>
    exact ⟨fun p hp => h1 p (AMap.mem_del.1 hp).1, fun t ht => ⟨(h2 t ht).1, fun p hp => (h2 t ht).2 p (AMap.mem_del.1 hp).1⟩⟩
  | setTimeout t =>
    have := hop t rfl
    refine ⟨fun p hp => ?_, fun t' ht => ⟨?_, (h2 t' ht).2⟩⟩
    · have := h1 p hp; simp only [T.step]; omega
    · have := (h2 t' ht).1; simp only [T.step]; omega
  | turn =>
    simp only [T.step, T.turn]
    split
    · exact sleep_inv (fun p hp => h1 p (List.mem_filter.1 hp).1)
    · exact ⟨h1, h2⟩

theorem T.step_timeout (s : T) (op : TOp) : (s.step op).timeout = match op with | .setTimeout t => t | _ => s.timeout := by
  cases op with
  | turn => simp only [T.step, T.turn, T.sleep]; split <;> rfl
  | _ => rfl

theorem T.inv_run {ops : List TOp} : ∀ {s : T}, s.Inv → NeverLowered s.timeout ops → (s.run ops).Inv := by
  induction ops with
  | nil => intro s h _; exact h
  | cons op ops ih =>
    intro s h hn
    refine ih (T.inv_step h op ?_) ?_
    · intro t e; subst e; exact hn.1
    · rw [T.step_timeout]
      cases op with
      | setTimeout t => exact hn.2
      | _ => exact hn

/-- After a turn the thread has nothing left to do. -/
theorem T.turn_idle (s : T) : (s.turn).ready = false ∨ s.turn = s := by
  unfold T.turn
  split
  · left
    unfold T.ready T.sleep
    simp only
    cases hm : minDeadline (s.deadlines.filter (fun p => decide (s.now < p.2))) with
    | none => simp only; rw [minDeadline_none hm]; rfl
    | some m =>
      obtain ⟨_, p, h2, h3⟩ := minDeadline_le hm
      have := (List.mem_filter.1 h2).2
      simp only [decide_eq_true_eq] at this
      simp only [decide_eq_false_iff_not]; omega
  · exact .inr rfl

end Stdio

/-- **C59 (partial).** As long as the timeout is never lowered, at every moment at which the timeout thread has had its turn no
request whose deadline has passed is still waiting. Missing: lowering the timeout, where it is false. -/
theorem C59_timeouts_on_time_partial (timeout : Nat) (ops : List TOp) (h : NeverLowered timeout ops) (key : Bytes) (dl : Nat) :
    let s := ((T.init timeout).run ops).turn
    (key, dl) ∈ s.deadlines → s.now < dl := by
  intro s hs
  have hinv : s.Inv := by
    have := T.inv_run (s := T.init timeout) ⟨by simp [T.init], by simp [T.init]⟩ h
    exact T.inv_step this .turn (by intro t e; cases e)
  have hready : s.ready = false := by
    rcases T.turn_idle ((T.init timeout).run ops) with h1 | h1
    · exact h1
    · cases hr : ((T.init timeout).run ops).ready with
      | false => show T.ready (T.turn _) = false; rw [h1, hr]
      | true =>
        rcases T.turn_idle ((T.init timeout).run ops) with h2 | h2
        · exact h2
        · -- a turn of a ready thread that changes nothing: nothing had expired
          show T.ready (T.turn _) = false
          unfold T.turn
          rw [if_pos hr]
          unfold T.ready T.sleep
          simp only
          cases hm : minDeadline (((T.init timeout).run ops).deadlines.filter (fun p => decide (((T.init timeout).run ops).now < p.2))) with
          | none => simp only; rw [minDeadline_none hm]; rfl
          | some m =>
            obtain ⟨_, p, h3, h4⟩ := minDeadline_le hm
            have := (List.mem_filter.1 h3).2
            simp only [decide_eq_true_eq] at this
            simp only [decide_eq_false_iff_not]; omega
  unfold T.ready at hready
  cases hw : s.wait with
  | first =>
    rw [hw] at hready
    simp only [Bool.not_eq_false', List.isEmpty_iff] at hready
    rw [hready] at hs; cases hs
  | «until» t =>
    rw [hw] at hready
    simp only [decide_eq_false_iff_not] at hready
    have := (hinv.2 t hw).2 _ hs
    simp only at this
    omega

example : NeverLowered 100 [.send (lit "a"), .turn, .advance 50, .setTimeout 200, .send (lit "b"), .turn, .advance 60] ∧
    (lit "b", 250) ∈ (((T.init 100).run [.send (lit "a"), .turn, .advance 50, .setTimeout 200, .send (lit "b"), .turn, .advance 60]).turn).deadlines := by
  refine ⟨⟨by decide, trivial⟩, by decide⟩

/-- **C59 fails** after the timeout has been lowered: for every pair of timeouts there is an execution in which a request is still
waiting although its deadline has passed and the timeout thread has had its turn, and it stays so until the deadline of the earlier
request. -/
theorem C59_lowered_timeout_counterexample (long short : Nat) (h : short < long) (n : Nat) (hn : n < long) :
    let s := ((T.init long).run [.send (lit "a"), .turn, .setTimeout short, .send (lit "b"), .turn, .advance n]).turn
    (lit "b", short) ∈ s.deadlines ∧ s.now = n := by
  have h0 : 0 < long := by omega
  have h00 : ¬ long = 0 := by omega
  have hnl : ¬ long ≤ n := by omega
  have hb2 : ¬ lit "a" = lit "b" := by decide
  simp [T.init, T.run, T.step, T.turn, T.ready, T.sleep, AMap.put, AMap.del, minDeadline, h0, h00, hb2, hnl]

end Verif
