import Verif.Life.Lemmas

/-!
Lemmas for executions in which everybody gets their turn again and again.
-/

namespace Verif.Life

/-- The steps that happen sooner or later when nobody from outside does anything: those of the threads of the server, and the end of a time limit. -/
inductive Own : Op → Prop where
  | give : Own .give
  | endLoop : Own .endLoop
  | work (i : Nat) : Own (.work i)
  | fail : Own (.fail true)
  | swap : Own .swap
  | join : Own .join

/-- Every such step has its turn again and again. -/
def Fair (f : Nat → Op) : Prop := ∀ op, Own op → ∀ n, ∃ m, n ≤ m ∧ f m = op

/-- The steps number `n` to `n + k - 1`. -/
def turns (f : Nat → Op) (n k : Nat) : List Op := (List.range' n k).map f

theorem turns_succ (f : Nat → Op) (n k : Nat) : turns f n (k + 1) = f n :: turns f (n + 1) k := by
  simp [turns, List.range'_succ]

theorem turns_add (f : Nat → Op) (n : Nat) : ∀ (a : Nat) (m : Nat), turns f m (a + n) = turns f m a ++ turns f (m + a) n := by
  intro a
  induction a with
  | zero => intro m; simp [turns]
  | succ a ih =>
    intro m
    rw [show a + 1 + n = (a + n) + 1 by omega, turns_succ, turns_succ, ih (m + 1)]
    simp [show m + 1 + a = m + (a + 1) by omega]

/-- One step of the reasoning: a measure no step raises, and in every state a step that lowers it and stays the one to lower it until it does. -/
theorem leads {κ : Kind} {f : Nat → Op} (hf : Fair f) (P G : S → Prop) (μ : S → Nat) (h : S → Op)
    (own : ∀ s, P s → Own (h s))
    (any : ∀ s op, P s → G (s.step κ op) ∨ (P (s.step κ op) ∧ (μ (s.step κ op) < μ s ∨ (μ (s.step κ op) = μ s ∧ h (s.step κ op) = h s))))
    (good : ∀ s, P s → G (s.step κ (h s)) ∨ μ (s.step κ (h s)) < μ s) :
    ∀ (w : Nat) (s : S) (n : Nat), μ s ≤ w → P s → ∃ k, G (s.run κ (turns f n k)) := by
  intro w
  induction w with
  | zero =>
    intro s n hw hp
    -- the measure cannot fall, so the helpful step reaches the goal
    have main : ∀ d s n, μ s = 0 → P s → f (n + d) = h s → ∃ k, G (s.run κ (turns f n k)) := by
      intro d
      induction d with
      | zero =>
        intro s n h0 hp hd
        rcases good s hp with hg | hg
        · refine ⟨1, ?_⟩
          rw [turns_succ]
          simp only [Nat.add_zero] at hd
          rw [hd]
          exact hg
        · omega
      | succ d ih =>
        intro s n h0 hp hd
        rcases any s (f n) hp with hg | ⟨hp', hm | ⟨hm, hh⟩⟩
        · exact ⟨1, by rw [turns_succ]; exact hg⟩
        · omega
        · obtain ⟨k, hk⟩ := ih (s.step κ (f n)) (n + 1) (by omega) hp' (by rw [hh, ← hd]; congr 1; omega)
          exact ⟨k + 1, by rw [turns_succ]; exact hk⟩
    obtain ⟨m, hm, he⟩ := hf (h s) (own s hp) n
    exact main (m - n) s n (by omega) hp (by rw [← he]; congr 1; omega)
  | succ w ihw =>
    intro s n hw hp
    have main : ∀ d s n, μ s ≤ w + 1 → P s → f (n + d) = h s → ∃ k, G (s.run κ (turns f n k)) := by
      intro d
      induction d with
      | zero =>
        intro s n h0 hp hd
        simp only [Nat.add_zero] at hd
        rcases any s (f n) hp with hg | ⟨hp', _⟩
        · exact ⟨1, by rw [turns_succ]; exact hg⟩
        · rcases good s hp with hg | hg
          · exact ⟨1, by rw [turns_succ, hd]; exact hg⟩
          · rw [hd] at hp'
            obtain ⟨k, hk⟩ := ihw (s.step κ (h s)) (n + 1) (by omega) hp'
            exact ⟨k + 1, by rw [turns_succ, hd]; exact hk⟩
      | succ d ih =>
        intro s n h0 hp hd
        rcases any s (f n) hp with hg | ⟨hp', hm | ⟨hm, hh⟩⟩
        · exact ⟨1, by rw [turns_succ]; exact hg⟩
        · obtain ⟨k, hk⟩ := ihw (s.step κ (f n)) (n + 1) (by omega) hp'
          exact ⟨k + 1, by rw [turns_succ]; exact hk⟩
        · obtain ⟨k, hk⟩ := ih (s.step κ (f n)) (n + 1) (by omega) hp' (by rw [hh, ← hd]; congr 1; omega)
          exact ⟨k + 1, by rw [turns_succ]; exact hk⟩
    obtain ⟨m, hm, he⟩ := hf (h s) (own s hp) n
    exact main (m - n) s n hw hp (by rw [← he]; congr 1; omega)

/-! What a step does to all threads together. -/

theorem mem_set {α : Type} {l : List α} {i : Nat} {a x : α} (h : x ∈ l.set i a) : x ∈ l ∨ x = a := by
  rcases List.mem_or_eq_of_mem_set h with h | h
  · exact .inl h
  · exact .inr h

theorem mem_modify {α : Type} {l : List α} {i : Nat} {g : α → α} {x : α} (h : x ∈ l.modify i g) : x ∈ l ∨ ∃ y ∈ l, x = g y := by
  obtain ⟨j, hj⟩ := List.mem_iff_getElem?.1 h
  rw [List.getElem?_modify] at hj
  cases hy : l[j]? with
  | none => rw [hy] at hj; simp at hj
  | some y =>
    rw [hy] at hj
    have hm : y ∈ l := List.mem_iff_getElem?.2 ⟨j, hy⟩
    by_cases e : i = j
    · simp [e] at hj; exact .inr ⟨y, hm, hj.symm⟩
    · simp [e] at hj; exact .inl (hj ▸ hm)

theorem works_mem (κ : Kind) (s : S) (op : Op) {t' : Th} (h : t' ∈ (s.step κ op).works) :
    (∃ t ∈ s.works, Next κ s t t') ∨ ∃ p, .start (.task p) ∈ s.reqs ∧ t' = .run p := by
  obtain ⟨i, hi⟩ := List.mem_iff_getElem?.1 h
  have hlt := (List.getElem?_eq_some_iff.1 hi).1
  by_cases hl : i < s.works.length
  · obtain ⟨u, hu, hn⟩ := works_next κ s op (List.getElem?_eq_getElem hl)
    rw [hi] at hu
    cases hu
    exact .inl ⟨_, List.getElem_mem hl, hn⟩
  · right
    rcases grown_step κ s op with e | ⟨e, hm, hst⟩
    · omega
    · cases op with
      | act j =>
        rcases act_cases κ s j with e' | ⟨t, _, _, _, e'⟩ | ⟨p, hp, e'⟩
        · simp only [S.step, e'] at e; omega
        · simp only [S.step, e', touch_works] at e; omega
        · refine ⟨p, List.mem_iff_getElem?.2 ⟨j, hp⟩, ?_⟩
          simp only [S.step, e', S.add, touch_works] at hi hlt
          have : i = s.works.length := by simp at hlt; omega
          subst this
          simp at hi
          exact hi.symm
      | request j => simp only [S.step] at hi hlt e; split at e <;> simp at e
      | take => simp only [S.step, S.takeOp] at e; (repeat' split at e) <;> simp at e
      | give => simp only [S.step, S.giveOp] at e; (repeat' split at e) <;> simp at e
      | endLoop => simp only [S.step, S.endLoopOp] at e; (repeat' split at e) <;> simp [S.failAll, touch_works] at e
      | work j => simp only [S.step, S.work] at e; (repeat' split at e) <;> simp at e
      | answer w j b => simp only [S.step, S.answerOp] at e; (repeat' split at e) <;> simp at e
      | peerDown => simp [S.step] at e
      | lost => simp only [S.step] at e; (repeat' split at e) <;> simp at e
      | stop => simp only [S.step, S.stopOp] at e; (repeat' split at e) <;> simp at e
      | fail late => simp only [S.step, S.failOp] at e; (repeat' split at e) <;> simp [S.failAll] at e
      | swap => simp only [S.step, S.swapOp] at e; (repeat' split at e) <;> simp at e
      | join => simp only [S.step, S.joinOp] at e; (repeat' split at e) <;> simp at e
      | destroy => simp only [S.step, S.destroyOp] at e; (repeat' split at e) <;> simp at e

theorem reqs_mem (κ : Kind) (s : S) (op : Op) {t' : Th} (h : t' ∈ (s.step κ op).reqs) :
    (∃ t ∈ s.reqs, Next κ s t t') ∨ ∃ j, s.taken = some j ∧ t' = .start j := by
  have keep : t' ∈ s.reqs → (∃ t ∈ s.reqs, Next κ s t t') ∨ ∃ j, s.taken = some j ∧ t' = .start j := fun h => .inl ⟨t', h, .inl rfl⟩
  have failing : t' ∈ s.reqs.map Th.failed → (∃ t ∈ s.reqs, Next κ s t t') ∨ ∃ j, s.taken = some j ∧ t' = .start j := by
    intro h
    obtain ⟨t, ht, e⟩ := List.mem_map.1 h
    exact .inl ⟨t, ht, .inr (.inr (.inl e.symm))⟩
  cases op with
  | request j => simp only [S.step] at h; split at h <;> exact keep h
  | take => simp only [S.step, S.takeOp] at h; (repeat' split at h) <;> exact keep h
  | give =>
    simp only [S.step, S.giveOp] at h
    split at h
    · rename_i j hj
      rcases List.mem_append.1 h with h | h
      · exact keep h
      · exact .inr ⟨j, hj, by simpa using h⟩
    · exact keep h
  | endLoop =>
    simp only [S.step, S.endLoopOp] at h
    split at h
    · exact keep h
    · split at h
      · cases κ with
        | memory => exact keep h
        | shared => exact failing h
        | stdio => exact keep (by simpa [touch_reqs] using h)
      · exact keep h
  | act i =>
    simp only [S.step] at h
    rcases act_cases κ s i with e | ⟨t, ht, _, _, e⟩ | ⟨p, hp, e⟩
    · rw [e] at h; exact keep h
    · rw [e] at h
      rcases mem_set h with h | h
      · exact keep h
      · exact .inl ⟨t, List.mem_iff_getElem?.2 ⟨i, ht⟩, .inr (.inl h)⟩
    · rw [e] at h
      rcases mem_set (show t' ∈ s.reqs.set i .over from h) with h | h
      · exact keep h
      · exact .inl ⟨_, List.mem_iff_getElem?.2 ⟨i, hp⟩, .inr (.inl h)⟩
  | work i =>
    simp only [S.step, S.work] at h
    split at h
    · exact keep h
    · split at h
      · exact keep h
      · exact keep (by simpa [touch_reqs] using h)
  | answer w i b =>
    simp only [S.step, S.answerOp] at h
    split at h
    · split at h
      · exact keep h
      · rcases mem_modify h with h | ⟨y, hy, e⟩
        · exact keep h
        · exact .inl ⟨y, hy, .inr (.inr (.inr ⟨b, e⟩))⟩
    · exact keep h
  | peerDown => exact keep h
  | lost => simp only [S.step] at h; split at h <;> exact keep h
  | stop => simp only [S.step, S.stopOp] at h; split at h <;> exact keep h
  | fail late => simp only [S.step, S.failOp] at h; (repeat' split at h) <;> first | exact failing h | exact keep h
  | swap => simp only [S.step, S.swapOp] at h; split at h <;> exact keep h
  | join => simp only [S.step, S.joinOp] at h; (repeat' split at h) <;> exact keep h
  | destroy => simp only [S.step, S.destroyOp] at h; (repeat' split at h) <;> exact keep h

/-- The connection does not come back. -/
theorem connected_step (κ : Kind) (s : S) (op : Op) (h : s.connected = false) : (s.step κ op).connected = false := by
  cases op with
  | act i =>
    simp only [S.step]
    rcases act_cases κ s i with e | ⟨t, ht, _, _, e⟩ | ⟨p, hp, e⟩
    · rw [e]; exact h
    · rw [e]; simpa [touch_connected] using h
    · rw [e]; simpa [S.add, touch_connected] using h
  | endLoop => simp only [S.step, S.endLoopOp]; (repeat' split) <;> simp [touch_connected, h, S.failAll]
  | work i => simp only [S.step, S.work]; (repeat' split) <;> simp [touch_connected, h]
  | request j => simp only [S.step]; split <;> exact h
  | take => simp only [S.step, S.takeOp]; (repeat' split) <;> exact h
  | give => simp only [S.step, S.giveOp]; (repeat' split) <;> exact h
  | answer w i b => simp only [S.step, S.answerOp]; (repeat' split) <;> exact h
  | peerDown => exact h
  | lost => simp only [S.step]; (repeat' split) <;> first | exact h | rfl
  | stop => simp only [S.step, S.stopOp]; (repeat' split) <;> first | exact h | rfl
  | fail late => simp only [S.step, S.failOp]; (repeat' split) <;> exact h
  | swap => simp only [S.step, S.swapOp]; (repeat' split) <;> exact h
  | join => simp only [S.step, S.joinOp]; (repeat' split) <;> exact h
  | destroy => simp only [S.step, S.destroyOp]; (repeat' split) <;> exact h

theorem peer_step (κ : Kind) (s : S) (op : Op) (h : s.peer = false) : (s.step κ op).peer = false := by
  cases op with
  | act i =>
    simp only [S.step]
    rcases act_cases κ s i with e | ⟨t, ht, _, _, e⟩ | ⟨p, hp, e⟩
    · rw [e]; exact h
    · rw [e]; simpa [touch_peer] using h
    · rw [e]; simpa [S.add, touch_peer] using h
  | endLoop => simp only [S.step, S.endLoopOp]; (repeat' split) <;> simp [touch_peer, h, S.failAll]
  | work i => simp only [S.step, S.work]; (repeat' split) <;> simp [touch_peer, h]
  | request j => simp only [S.step]; split <;> exact h
  | take => simp only [S.step, S.takeOp]; (repeat' split) <;> exact h
  | give => simp only [S.step, S.giveOp]; (repeat' split) <;> exact h
  | answer w i b => simp only [S.step, S.answerOp]; (repeat' split) <;> exact h
  | peerDown => rfl
  | lost => simp only [S.step]; (repeat' split) <;> exact h
  | stop => simp only [S.step, S.stopOp]; (repeat' split) <;> exact h
  | fail late => simp only [S.step, S.failOp]; (repeat' split) <;> exact h
  | swap => simp only [S.step, S.swapOp]; (repeat' split) <;> exact h
  | join => simp only [S.step, S.joinOp]; (repeat' split) <;> exact h
  | destroy => simp only [S.step, S.destroyOp]; (repeat' split) <;> exact h

/-- Once the side is not connected, nothing is taken any more. -/
theorem taken_step (κ : Kind) (s : S) (op : Op) (h : s.connected = false) : (s.step κ op).taken = s.taken ∨ (op = .give ∧ (s.step κ op).taken = none) := by
  cases op with
  | act i =>
    left
    simp only [S.step]
    rcases act_cases κ s i with e | ⟨t, ht, _, _, e⟩ | ⟨p, hp, e⟩
    · rw [e]
    · rw [e]; simp [touch_taken]
    · rw [e]; simp [S.add, touch_taken]
  | endLoop => left; simp only [S.step, S.endLoopOp]; (repeat' split) <;> simp [touch_taken, S.failAll, *]
  | work i => left; simp only [S.step, S.work]; (repeat' split) <;> simp [touch_taken]
  | request j => left; simp only [S.step]; split <;> rfl
  | take => left; simp only [S.step, S.takeOp]; (repeat' split) <;> simp_all
  | give =>
    simp only [S.step, S.giveOp]
    split
    · exact .inr ⟨trivial, rfl⟩
    · exact .inl rfl
  | answer w i b => left; simp only [S.step, S.answerOp]; (repeat' split) <;> rfl
  | peerDown => exact .inl rfl
  | lost => left; simp only [S.step]; (repeat' split) <;> rfl
  | stop => left; simp only [S.step, S.stopOp]; (repeat' split) <;> rfl
  | fail late => left; simp only [S.step, S.failOp]; (repeat' split) <;> rfl
  | swap => left; simp only [S.step, S.swapOp]; (repeat' split) <;> rfl
  | join => left; simp only [S.step, S.joinOp]; (repeat' split) <;> rfl
  | destroy => left; simp only [S.step, S.destroyOp]; (repeat' split) <;> rfl

/-- The loop is left for good. -/
theorem loop_step (κ : Kind) (s : S) (op : Op) : (s.step κ op).loop = s.loop ∨ (s.step κ op).loop = false := by
  cases op with
  | act i =>
    left
    simp only [S.step]
    rcases act_cases κ s i with e | ⟨t, ht, _, _, e⟩ | ⟨p, hp, e⟩
    · rw [e]
    · rw [e]; simp [touch_loop]
    · rw [e]; simp [S.add, touch_loop]
  | endLoop => simp only [S.step, S.endLoopOp]; (repeat' split) <;> simp
  | work i => left; simp only [S.step, S.work]; (repeat' split) <;> simp [touch_loop]
  | request j => left; simp only [S.step]; split <;> rfl
  | take => left; simp only [S.step, S.takeOp]; (repeat' split) <;> rfl
  | give => left; simp only [S.step, S.giveOp]; (repeat' split) <;> rfl
  | answer w i b => left; simp only [S.step, S.answerOp]; (repeat' split) <;> rfl
  | peerDown => exact .inl rfl
  | lost => left; simp only [S.step]; (repeat' split) <;> rfl
  | stop => left; simp only [S.step, S.stopOp]; (repeat' split) <;> rfl
  | fail late => left; simp only [S.step, S.failOp]; (repeat' split) <;> rfl
  | swap => left; simp only [S.step, S.swapOp]; (repeat' split) <;> rfl
  | join => left; simp only [S.step, S.joinOp]; (repeat' split) <;> rfl
  | destroy => left; simp only [S.step, S.destroyOp]; (repeat' split) <;> rfl

/-- Where `Stop` stands changes only by its own steps. -/
theorem stop_step (κ : Kind) (s : S) (op : Op) : (s.step κ op).stop = s.stop ∨
    (s.stop = .idle ∧ op = .stop ∧ (s.step κ op).stop = .closing) ∨
    (s.stop = .closing ∧ (∃ l, op = .fail l) ∧ (s.step κ op) = { s.failAll with stop := .swap }) ∨
    (s.stop = .swap ∧ op = .swap ∧ s.step κ op = { s with stop := .joining s.group, group := [] }) ∨
    (s.stop = .joining [] ∧ op = .join ∧ s.step κ op = { s with stop := .done }) ∨
    (∃ i l, s.stop = .joining (i :: l) ∧ op = .join ∧ s.works[i]? = some .over ∧ s.step κ op = { s with stop := .joining l }) := by
  cases op with
  | act i =>
    left
    simp only [S.step]
    rcases act_cases κ s i with e | ⟨t, ht, _, _, e⟩ | ⟨p, hp, e⟩
    · rw [e]
    · rw [e]; simp [touch_stop]
    · rw [e]; simp [S.add, touch_stop]
  | endLoop => left; simp only [S.step, S.endLoopOp]; (repeat' split) <;> simp [touch_stop, S.failAll]
  | work i => left; simp only [S.step, S.work]; (repeat' split) <;> simp [touch_stop]
  | request j => left; simp only [S.step]; split <;> rfl
  | take => left; simp only [S.step, S.takeOp]; (repeat' split) <;> rfl
  | give => left; simp only [S.step, S.giveOp]; (repeat' split) <;> rfl
  | answer w i b => left; simp only [S.step, S.answerOp]; (repeat' split) <;> rfl
  | peerDown => exact .inl rfl
  | lost => left; simp only [S.step]; (repeat' split) <;> rfl
  | destroy => left; simp only [S.step, S.destroyOp]; (repeat' split) <;> rfl
  | stop =>
    simp only [S.step, S.stopOp]
    split
    · rename_i h; exact .inr (.inl ⟨h, trivial, rfl⟩)
    · exact .inl rfl
  | fail late =>
    simp only [S.step, S.failOp]
    split
    · rename_i h
      split
      · exact .inr (.inr (.inl ⟨h, ⟨late, rfl⟩, rfl⟩))
      · exact .inl rfl
    · exact .inl rfl
  | swap =>
    simp only [S.step, S.swapOp]
    split
    · rename_i h; exact .inr (.inr (.inr (.inl ⟨h, trivial, rfl⟩)))
    · exact .inl rfl
  | join =>
    simp only [S.step, S.joinOp]
    split
    · rename_i h; exact .inr (.inr (.inr (.inr (.inl ⟨h, trivial, rfl⟩))))
    · rename_i i l h
      split
      · rename_i ho; exact .inr (.inr (.inr (.inr (.inr ⟨i, l, h, trivial, ho, rfl⟩))))
      · exact .inl rfl
    · exact .inl rfl

end Verif.Life
