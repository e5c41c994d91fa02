import Verif.Life.Fair

/-!
C108: `Stop` comes to its end.
-/

namespace Verif
open Life

/-- A handler does not wait for ever once the side is closed: it has nothing to ask any more, or what it asks is refused at once. -/
def Mild (κ : Kind) (s : S) (p : Prog) : Prop := p = .ret ∨ κ.refuses = true ∨ (κ.knows = true ∧ s.peer = false)

/-- The same of a worker as it stands when `Stop` is called. One that `SendRequest` has let through is mild only when the sending will fail. -/
def Placid (κ : Kind) (s : S) : Th → Prop
  | .start _ => False
  | .run p => Mild κ s p
  | .checked _ => κ.knows = true ∧ s.peer = false
  | .waiting k => ∀ b, Mild κ s (k b)
  | .over => True

/-- No worker waits. -/
def Th.freed : Th → Prop
  | .waiting _ => False
  | _ => True

/-- All workers are calm, and so are the tasks that may still begin. -/
structure Mellow (κ : Kind) (s : S) : Prop where
  conn : s.connected = false
  works : ∀ t ∈ s.works, Placid κ s t
  reqs : ∀ p, Th.start (.task p) ∈ s.reqs → Mild κ s p
  taken : ∀ p, s.taken = some (.task p) → Mild κ s p

theorem mild_step {κ : Kind} {s : S} {p : Prog} (h : Mild κ s p) (op : Op) : Mild κ (s.step κ op) p := by
  rcases h with h | h | ⟨h, hp⟩
  · exact .inl h
  · exact .inr (.inl h)
  · exact .inr (.inr ⟨h, peer_step κ s op hp⟩)

theorem mild_ask {κ : Kind} {s : S} {k : Bool → Prog} (h : Mild κ s (.ask k)) (b : Bool) : Mild κ s (k b) := by
  rcases h with h | h | h
  · cases h
  · exact .inr (.inl h)
  · exact .inr (.inr h)

theorem placid_step {κ : Kind} {s : S} {t : Th} (h : Placid κ s t) (op : Op) : Placid κ (s.step κ op) t := by
  cases t with
  | start j => exact h
  | run p => exact mild_step h op
  | checked k => exact ⟨h.1, peer_step κ s op h.2⟩
  | waiting k => exact fun b => mild_step (h b) op
  | over => trivial

theorem placid_next {κ : Kind} {s : S} (hc : s.connected = false) {t t' : Th} (h : Placid κ s t) (hn : Next κ s t t') : Placid κ s t' := by
  cases t with
  | start j => exact absurd h id
  | over => rw [next_over hn]; trivial
  | waiting k =>
    rcases hn with hn | hn | hn | ⟨b, hn⟩
    · rw [hn]; exact h
    · rw [hn]; exact h
    · rw [hn]; exact h false
    · rw [hn]; exact h b
  | checked k =>
    rcases hn with hn | hn | hn | ⟨b, hn⟩
    · rw [hn]; exact h
    · rw [hn]
      simp only [S.move, h.1, h.2]
      exact .inr (.inr h)
    · rw [hn]; exact h
    · rw [hn]; exact h
  | run p =>
    rcases hn with hn | hn | hn | ⟨b, hn⟩
    · rw [hn]; exact h
    · rw [hn]
      cases p with
      | ret => trivial
      | ask k =>
        simp only [S.move, hc]
        split
        · exact mild_ask h false
        · rename_i hr
          rcases h with h | h | h
          · cases h
          · simp [h] at hr
          · exact h
    · rw [hn]; exact h
    · rw [hn]; exact h

theorem mellow_step {κ : Kind} {s : S} (h : Mellow κ s) (op : Op) : Mellow κ (s.step κ op) := by
  refine ⟨connected_step κ s op h.conn, ?_, ?_, ?_⟩
  · intro t ht
    rcases works_mem κ s op ht with ⟨u, hu, hn⟩ | ⟨p, hp, e⟩
    · exact placid_step (placid_next h.conn (h.works u hu) hn) op
    · rw [e]; exact mild_step (h.reqs p hp) op
  · intro p hp
    rcases reqs_mem κ s op hp with ⟨u, hu, hn⟩ | ⟨j, hj, e⟩
    · have : u = .start (.task p) := by
        cases u with
        | start j =>
          cases j with
          | call q =>
            rcases hn with hn | hn | hn | ⟨b, hn⟩ <;> simp [S.move, Th.failed, Th.answered] at hn
          | task q =>
            rcases hn with hn | hn | hn | ⟨b, hn⟩ <;> simp [S.move, Th.failed, Th.answered] at hn ⊢ <;> exact hn.symm
        | run q =>
          rcases hn with hn | hn | hn | ⟨b, hn⟩
          · simp at hn
          · cases q with
            | ret => simp [S.move] at hn
            | ask k => simp only [S.move] at hn; split at hn <;> simp at hn
          · simp [Th.failed] at hn
          · simp [Th.answered] at hn
        | checked k =>
          rcases hn with hn | hn | hn | ⟨b, hn⟩
          · simp at hn
          · simp only [S.move] at hn; split at hn <;> simp at hn
          · simp [Th.failed] at hn
          · simp [Th.answered] at hn
        | waiting k =>
          rcases hn with hn | hn | hn | ⟨b, hn⟩ <;> simp [S.move, Th.failed, Th.answered] at hn
        | over => rw [next_over hn]
      rw [this] at hu
      exact mild_step (h.reqs p hu) op
    · cases e
      exact mild_step (h.taken p hj) op
  · intro p hp
    rcases taken_step κ s op h.conn with e | ⟨_, e⟩
    · rw [e] at hp; exact mild_step (h.taken p hp) op
    · rw [e] at hp; simp at hp

/-- Once no worker waits, none does again. -/
theorem freed_step {κ : Kind} {s : S} (h : Mellow κ s) (hw : ∀ t ∈ s.works, Th.freed t) (op : Op) : ∀ t ∈ (s.step κ op).works, Th.freed t := by
  intro t' ht
  rcases works_mem κ s op ht with ⟨t, hu, hn⟩ | ⟨p, hp, e⟩
  · have hf := hw t hu
    have hc := h.works t hu
    cases t with
    | start j => exact absurd hc id
    | over => rw [next_over hn]; trivial
    | waiting k => exact absurd hf id
    | checked k =>
      rcases hn with hn | hn | hn | ⟨b, hn⟩
      · rw [hn]; trivial
      · rw [hn]; simp only [S.move, hc.1, hc.2]; trivial
      · rw [hn]; trivial
      · rw [hn]; trivial
    | run p =>
      rcases hn with hn | hn | hn | ⟨b, hn⟩
      · rw [hn]; trivial
      · rw [hn]
        cases p with
        | ret => trivial
        | ask k => simp only [S.move]; split <;> trivial
      · rw [hn]; trivial
      · rw [hn]; trivial
  · rw [e]; trivial

/-- The futures are those of workers that exist. -/
def Valid (s : S) : Prop := (∀ i ∈ s.group, i < s.works.length) ∧ ∀ i ∈ s.held, i < s.works.length

theorem valid_step {κ : Kind} {s : S} (h : Valid s) (op : Op) : Valid (s.step κ op) := by
  have hlen : s.works.length ≤ (s.step κ op).works.length := by rcases grown_step κ s op with e | ⟨e, _⟩ <;> omega
  have hg : ∀ i ∈ (s.step κ op).group, i < (s.step κ op).works.length := by
    intro i hi
    have keep : i ∈ s.group → i < (s.step κ op).works.length := fun hm => Nat.lt_of_lt_of_le (h.1 i hm) hlen
    cases op with
    | act j =>
      simp only [S.step] at hi ⊢
      rcases act_cases κ s j with e | ⟨t, _, _, _, e⟩ | ⟨p, _, e⟩
      · rw [e] at hi ⊢; exact h.1 i hi
      · rw [e] at hi ⊢; simp only [touch_group, touch_works] at hi ⊢; exact h.1 i hi
      · rw [e] at hi ⊢
        simp only [S.add, touch_works, touch_group, List.mem_append, List.mem_filter, List.length_append, List.length_cons, List.length_nil] at hi ⊢
        rcases hi with hi | hi
        · have := h.1 i hi.1; omega
        · simp at hi; omega
    | request j => simp only [S.step] at hi keep ⊢; split at hi <;> simp_all
    | take => exact keep (by simp only [S.step, S.takeOp] at hi; (repeat' split at hi) <;> exact hi)
    | give => exact keep (by simp only [S.step, S.giveOp] at hi; (repeat' split at hi) <;> exact hi)
    | endLoop => exact keep (by simp only [S.step, S.endLoopOp] at hi; (repeat' split at hi) <;> simpa [touch_group, S.failAll] using hi)
    | work j => exact keep (by simp only [S.step, S.work] at hi; (repeat' split at hi) <;> simpa [touch_group] using hi)
    | answer w j b => exact keep (by simp only [S.step, S.answerOp] at hi; (repeat' split at hi) <;> exact hi)
    | peerDown => exact keep hi
    | lost => exact keep (by simp only [S.step] at hi; (repeat' split at hi) <;> exact hi)
    | stop => exact keep (by simp only [S.step, S.stopOp] at hi; (repeat' split at hi) <;> exact hi)
    | fail late => exact keep (by simp only [S.step, S.failOp] at hi; (repeat' split at hi) <;> exact hi)
    | swap => exact keep (by simp only [S.step, S.swapOp] at hi; (repeat' split at hi) <;> first | exact hi | simp at hi)
    | join => exact keep (by simp only [S.step, S.joinOp] at hi; (repeat' split at hi) <;> exact hi)
    | destroy => exact keep (by simp only [S.step, S.destroyOp] at hi; (repeat' split at hi) <;> exact hi)
  refine ⟨hg, ?_⟩
  intro i hi
  rcases stop_step κ s op with e | ⟨e1, _, e⟩ | ⟨e1, _, e⟩ | ⟨e1, _, e⟩ | ⟨e1, _, e⟩ | ⟨j, l, e1, _, _, e⟩
  · unfold S.held at hi
    rw [e] at hi
    cases hs : s.stop with
    | joining l =>
      rw [hs] at hi
      exact Nat.lt_of_lt_of_le (h.2 i (by unfold S.held; rw [hs]; exact hi)) hlen
    | done => rw [hs] at hi; simp at hi
    | idle => rw [hs] at hi; exact hg i hi
    | closing => rw [hs] at hi; exact hg i hi
    | swap => rw [hs] at hi; exact hg i hi
  · unfold S.held at hi; rw [e] at hi; exact hg i hi
  · rw [e] at hi ⊢
    have : i < s.works.length := h.1 i hi
    simpa [S.failAll] using this
  · rw [e] at hi ⊢
    exact h.1 i hi
  · rw [e] at hi; simp [S.held] at hi
  · rw [e] at hi ⊢
    exact h.2 i (by unfold S.held; rw [e1]; exact List.mem_cons_of_mem _ hi)

theorem valid_run {κ : Kind} (ops : List Op) : ∀ {s : S}, Valid s → Valid (s.run κ ops) := by
  induction ops with
  | nil => intro s h; exact h
  | cons op ops ih => intro s h; exact ih (valid_step h op)

theorem valid_init : Valid S.init := ⟨by simp [S.init], by simp [S.init, S.held]⟩

/-! ### The work left for a worker -/

def size : Prog → Nat
  | .ret => 1
  | .ask k => 4 + (size (k true) + size (k false))

def left : Th → Nat
  | .start _ => 0
  | .run p => size p
  | .checked k => 3 + (size (k true) + size (k false))
  | .waiting k => 2 + (size (k true) + size (k false))
  | .over => 0

theorem size_pos : ∀ p : Prog, 0 < size p
  | .ret => by simp [size]
  | .ask k => by simp only [size]; omega

theorem size_le (k : Bool → Prog) (b : Bool) : size (k b) ≤ size (k true) + size (k false) := by cases b <;> omega

theorem left_next {κ : Kind} {s : S} {t t' : Th} (hc : Placid κ s t) (hn : Next κ s t t') : left t' ≤ left t := by
  rcases hn with hn | hn | hn | ⟨b, hn⟩
  · rw [hn]; exact Nat.le_refl _
  · rw [hn]
    cases t with
    | start j => exact absurd hc id
    | run p =>
      cases p with
      | ret => simp [S.move, left]
      | ask k =>
        simp only [S.move]
        split
        · simp only [left, size]; omega
        · simp only [left, size]; omega
    | checked k => simp only [S.move]; split <;> simp only [left] <;> omega
    | waiting k => exact Nat.le_refl _
    | over => exact Nat.le_refl _
  · rw [hn]
    cases t <;> simp only [Th.failed, left] <;> omega
  · rw [hn]
    cases t with
    | waiting k => have := size_le k b; simp only [Th.answered, left]; omega
    | _ => exact Nat.le_refl _

theorem left_move {κ : Kind} {s : S} {t : Th} (hc : Placid κ s t) (hf : Th.freed t) (ho : t ≠ .over) : left (s.move κ t).1 < left t := by
  cases t with
  | start j => exact absurd hc id
  | run p =>
    cases p with
    | ret => simp [S.move, left, size]
    | ask k =>
      simp only [S.move]
      split
      · simp only [left, size]; omega
      · simp only [left, size]; omega
  | checked k => simp only [S.move]; split <;> simp only [left] <;> omega
  | waiting k => exact absurd hf id
  | over => exact absurd rfl ho

/-- The work left for worker `i`. -/
def leftAt (s : S) (i : Nat) : Nat := (s.works[i]?.map left).getD 0

/-- The work left for the workers that are waited for. -/
def toDo (s : S) : List Nat → Nat
  | [] => 0
  | i :: l => leftAt s i + 1 + toDo s l

theorem leftAt_step {κ : Kind} {s : S} (h : Mellow κ s) (op : Op) {i : Nat} (hi : i < s.works.length) : leftAt (s.step κ op) i ≤ leftAt s i := by
  obtain ⟨t', ht', hn⟩ := works_next κ s op (List.getElem?_eq_getElem hi)
  unfold leftAt
  rw [ht', List.getElem?_eq_getElem hi]
  exact left_next (h.works _ (List.getElem_mem hi)) hn

theorem toDo_step {κ : Kind} {s : S} (h : Mellow κ s) (op : Op) : ∀ l : List Nat, (∀ i ∈ l, i < s.works.length) → toDo (s.step κ op) l ≤ toDo s l := by
  intro l
  induction l with
  | nil => intro _; exact Nat.le_refl _
  | cons i l ih =>
    intro hl
    have h1 := leftAt_step h op (hl i (by simp))
    have h2 := ih (fun j hj => hl j (List.mem_cons_of_mem _ hj))
    simp only [toDo]
    omega

theorem toDo_eq {κ : Kind} {s : S} (h : Mellow κ s) (op : Op) : ∀ l : List Nat, (∀ i ∈ l, i < s.works.length) → toDo (s.step κ op) l = toDo s l →
    ∀ i ∈ l, leftAt (s.step κ op) i = leftAt s i := by
  intro l
  induction l with
  | nil => intro _ _ i hi; simp at hi
  | cons j l ih =>
    intro hl he i hi
    have h1 := leftAt_step h op (hl j (by simp))
    have h2 := toDo_step h op l (fun j hj => hl j (List.mem_cons_of_mem _ hj))
    simp only [toDo] at he
    rcases List.mem_cons.1 hi with e | e
    · subst e; omega
    · exact ih (fun j hj => hl j (List.mem_cons_of_mem _ hj)) (by omega) i e

/-- A worker that has work left has not ended, and the other way round. -/
theorem leftAt_zero {κ : Kind} {s : S} (h : Mellow κ s) {i : Nat} (hi : i < s.works.length) : leftAt s i = 0 ↔ s.works[i]? = some .over := by
  unfold leftAt
  rw [List.getElem?_eq_getElem hi]
  have hc := h.works _ (List.getElem_mem hi)
  constructor
  · intro h0
    cases ht : s.works[i] with
    | start j => rw [ht] at hc; exact absurd hc id
    | run p => rw [ht] at h0; have := size_pos p; simp [left] at h0; omega
    | checked k => rw [ht] at h0; simp [left] at h0
    | waiting k => rw [ht] at h0; simp [left] at h0
    | over => rfl
  · intro he
    simp only [Option.some.injEq] at he
    rw [he]
    rfl

/-! ### The three phases -/

/-- `Close` comes to its end. -/
theorem closing_ends {κ : Kind} {f : Nat → Op} (hf : Fair f) (s : S) (n : Nat) (h : Mellow κ s ∧ Valid s ∧ s.stop = .closing) :
    ∃ k, (Mellow κ (s.run κ (turns f n k)) ∧ Valid (s.run κ (turns f n k)) ∧ (∀ t ∈ (s.run κ (turns f n k)).works, Th.freed t)) ∧ (s.run κ (turns f n k)).stop = .swap := by
  refine leads (κ := κ) hf (fun s => Mellow κ s ∧ Valid s ∧ s.stop = .closing)
    (fun s => (Mellow κ s ∧ Valid s ∧ (∀ t ∈ s.works, Th.freed t)) ∧ s.stop = .swap)
    (fun s => (if s.loop then 1 else 0) + (if s.taken.isSome then 1 else 0))
    (fun s => if !κ.waits || !s.loop || κ.givesUp then .fail true else if s.taken.isSome then .give else .endLoop)
    ?_ ?_ ?_ _ s n (Nat.le_refl _) h
  · intro s _
    split
    · exact .fail
    · split
      · exact .give
      · exact .endLoop
  · rintro s op ⟨hm, hv, hs⟩
    have hm' := mellow_step hm op
    have hv' := valid_step (κ := κ) hv op
    rcases stop_step κ s op with e | ⟨e, _, _⟩ | ⟨_, _, e⟩ | ⟨e, _, _⟩ | ⟨e, _, _⟩ | ⟨i, l, e, _, _, _⟩
    · right
      refine ⟨⟨hm', hv', by rw [e]; exact hs⟩, ?_⟩
      rcases loop_step κ s op with el | el <;> rcases taken_step κ s op hm.conn with et | ⟨_, et⟩
      · right; simp only [el, et, and_self]
      · cases ht : s.taken with
        | none => right; simp only [el, et, ht, and_self]
        | some j => left; simp only [el, et]; simp
      · cases hl : s.loop with
        | false => right; simp only [el, et, hl, and_self]
        | true => left; simp only [el, et]; simp
      · cases hl : s.loop with
        | false =>
          cases ht : s.taken with
          | none => right; simp only [el, et, hl, ht, and_self]
          | some j => left; simp only [el, et]; simp
        | true => left; simp only [el, et]; cases s.taken <;> simp
    · rw [hs] at e; simp at e
    · left
      refine ⟨⟨hm', hv', ?_⟩, by rw [e]⟩
      rw [e]
      intro t ht
      obtain ⟨u, _, eu⟩ := List.mem_map.1 ht
      rw [← eu]
      cases u <;> trivial
    · rw [hs] at e; simp at e
    · rw [hs] at e; simp at e
    · rw [hs] at e; simp at e
  · rintro s ⟨hm, hv, hs⟩
    split
    · rename_i hc
      left
      have hc' : (!κ.waits || !s.loop || (κ.givesUp && true)) = true := by simpa using hc
      have e : s.step κ (.fail true) = { s.failAll with stop := .swap } := by simp only [S.step, S.failOp, hs, hc']; rfl
      have hm' := mellow_step hm (.fail true)
      have hv' := valid_step (κ := κ) hv (.fail true)
      refine ⟨⟨hm', hv', ?_⟩, by rw [e]⟩
      rw [e]
      intro t ht
      obtain ⟨u, _, eu⟩ := List.mem_map.1 ht
      rw [← eu]
      cases u <;> trivial
    · rename_i hc
      simp only [Bool.or_eq_true, Bool.not_eq_true', not_or, Bool.not_eq_false, Bool.not_eq_true] at hc
      obtain ⟨⟨hw, hl⟩, hg⟩ := hc
      have hk : κ = .shared := by cases κ <;> simp [Kind.waits, Kind.givesUp] at hw hg ⊢
      subst hk
      right
      split
      · rename_i ht
        obtain ⟨j, hj⟩ := Option.isSome_iff_exists.1 ht
        simp [S.step, S.giveOp, hj, hl]
      · rename_i ht
        have hj : s.taken = none := by cases h : s.taken <;> simp [h] at ht ⊢
        simp [S.step, S.endLoopOp, hj, hl, hm.conn, Kind.apart, S.failAll]

/-- `WaitAll` begins. -/
theorem swap_ends {κ : Kind} {f : Nat → Op} (hf : Fair f) (s : S) (n : Nat) (h : (Mellow κ s ∧ Valid s ∧ (∀ t ∈ s.works, Th.freed t)) ∧ s.stop = .swap) :
    ∃ k, (Mellow κ (s.run κ (turns f n k)) ∧ Valid (s.run κ (turns f n k)) ∧ (∀ t ∈ (s.run κ (turns f n k)).works, Th.freed t)) ∧
      ∃ l, (s.run κ (turns f n k)).stop = .joining l := by
  refine leads (κ := κ) hf (fun s => (Mellow κ s ∧ Valid s ∧ (∀ t ∈ s.works, Th.freed t)) ∧ s.stop = .swap)
    (fun s => (Mellow κ s ∧ Valid s ∧ (∀ t ∈ s.works, Th.freed t)) ∧ ∃ l, s.stop = .joining l) (fun _ => 0) (fun _ => .swap)
    (fun _ _ => .swap) ?_ ?_ _ s n (Nat.le_refl _) h
  · rintro s op ⟨⟨hm, hv, hw⟩, hs⟩
    have hm' := mellow_step hm op
    have hv' := valid_step (κ := κ) hv op
    have hw' := freed_step hm hw op
    rcases stop_step κ s op with e | ⟨e, _, _⟩ | ⟨e, _, _⟩ | ⟨_, _, e⟩ | ⟨e, _, _⟩ | ⟨i, l, e, _, _, _⟩
    · exact .inr ⟨⟨⟨hm', hv', hw'⟩, by rw [e]; exact hs⟩, .inr ⟨rfl, rfl⟩⟩
    · rw [hs] at e; simp at e
    · rw [hs] at e; simp at e
    · exact .inl ⟨⟨hm', hv', hw'⟩, s.group, by rw [e]⟩
    · rw [hs] at e; simp at e
    · rw [hs] at e; simp at e
  · rintro s ⟨⟨hm, hv, hw⟩, hs⟩
    exact .inl ⟨⟨mellow_step hm .swap, valid_step hv .swap, freed_step hm hw .swap⟩, s.group, by simp [S.step, S.swapOp, hs]⟩

/-- The list that `WaitAll` waits for. -/
def waitsFor (s : S) : List Nat :=
  match s.stop with
  | .joining l => l
  | _ => []

/-- `WaitAll` comes to its end. -/
theorem joining_ends {κ : Kind} {f : Nat → Op} (hf : Fair f) (s : S) (n : Nat)
    (h : (Mellow κ s ∧ Valid s ∧ (∀ t ∈ s.works, Th.freed t)) ∧ ∃ l, s.stop = .joining l) :
    ∃ k, (s.run κ (turns f n k)).stop = .done := by
  refine leads (κ := κ) hf (fun s => (Mellow κ s ∧ Valid s ∧ (∀ t ∈ s.works, Th.freed t)) ∧ ∃ l, s.stop = .joining l)
    (fun s => s.stop = .done) (fun s => toDo s (waitsFor s))
    (fun s => match waitsFor s with
      | [] => .join
      | i :: _ => if leftAt s i = 0 then .join else .work i)
    ?_ ?_ ?_ _ s n (Nat.le_refl _) h
  · intro s _
    split
    · exact .join
    · split
      · exact .join
      · exact .work _
  · rintro s op ⟨⟨hm, hv, hw⟩, l, hs⟩
    have hm' := mellow_step hm op
    have hv' := valid_step (κ := κ) hv op
    have hw' := freed_step hm hw op
    have hl : ∀ i ∈ l, i < s.works.length := fun i hi => hv.2 i (by unfold S.held; rw [hs]; exact hi)
    rcases stop_step κ s op with e | ⟨e, _, _⟩ | ⟨e, _, _⟩ | ⟨e, _, _⟩ | ⟨e, _, e2⟩ | ⟨i, r, e, _, ho, e2⟩
    · right
      refine ⟨⟨⟨hm', hv', hw'⟩, l, by rw [e]; exact hs⟩, ?_⟩
      have e1 : waitsFor s = l := by unfold waitsFor; rw [hs]
      have e2 : waitsFor (s.step κ op) = l := by unfold waitsFor; rw [e, hs]
      simp only [e1, e2]
      have hle := toDo_step hm op l hl
      by_cases heq : toDo (s.step κ op) l = toDo s l
      · refine .inr ⟨heq, ?_⟩
        cases l with
        | nil => rfl
        | cons i r => dsimp only; rw [toDo_eq hm op (i :: r) hl heq i (by simp)]
      · exact .inl (by omega)
    · rw [hs] at e; simp at e
    · rw [hs] at e; simp at e
    · rw [hs] at e; simp at e
    · exact .inl (by rw [e2])
    · right
      rw [hs] at e
      cases e
      refine ⟨⟨⟨hm', hv', hw'⟩, r, by rw [e2]⟩, .inl ?_⟩
      have e1 : waitsFor s = i :: r := by unfold waitsFor; rw [hs]
      rw [e1, e2]
      show toDo { s with stop := .joining r } r < _
      have : ∀ l : List Nat, toDo { s with stop := .joining r } l = toDo s l := by
        intro l
        induction l with
        | nil => rfl
        | cons j l ih => simp only [toDo, ih]; rfl
      rw [this]
      simp only [toDo]
      omega
  · rintro s ⟨⟨hm, hv, hw⟩, l, hs⟩
    have hl : ∀ i ∈ l, i < s.works.length := fun i hi => hv.2 i (by unfold S.held; rw [hs]; exact hi)
    have e1 : waitsFor s = l := by unfold waitsFor; rw [hs]
    simp only [e1]
    cases l with
    | nil => exact .inl (by simp [S.step, S.joinOp, hs])
    | cons i r =>
      right
      have hi := hl i (by simp)
      dsimp only
      split
      · rename_i h0
        have ho := (leftAt_zero hm hi).1 h0
        have e2 : s.step κ .join = { s with stop := .joining r } := by simp [S.step, S.joinOp, hs, ho]
        rw [e2]
        show toDo { s with stop := .joining r } r < _
        have : ∀ l : List Nat, toDo { s with stop := .joining r } l = toDo s l := by
          intro l
          induction l with
          | nil => rfl
          | cons j l ih => simp only [toDo, ih]; rfl
        rw [this]
        simp only [toDo]
        omega
      · rename_i h0
        have hs' : waitsFor (s.step κ (.work i)) = i :: r := by
          unfold waitsFor
          rcases stop_step κ s (.work i) with e | ⟨_, e, _⟩ | ⟨_, ⟨_, e⟩, _⟩ | ⟨_, e, _⟩ | ⟨_, e, _⟩ | ⟨_, _, _, e, _, _⟩
          · rw [e, hs]
          all_goals simp at e
        rw [hs']
        have h2 := toDo_step hm (.work i) r (fun j hj => hl j (List.mem_cons_of_mem _ hj))
        have h1 : leftAt (s.step κ (.work i)) i < leftAt s i := by
          have hg : s.works[i]? = some s.works[i] := List.getElem?_eq_getElem hi
          have hmem : s.works[i] ∈ s.works := List.getElem_mem hi
          have hne : s.works[i] ≠ .over := fun hc => h0 ((leftAt_zero hm hi).2 (by rw [hg, hc]))
          have hnid : s.works[i].idle = false := by
            have h3 := hw _ hmem
            cases hc : s.works[i] with
            | waiting k => rw [hc] at h3; exact absurd h3 id
            | over => exact absurd hc hne
            | _ => rfl
          have hlt := left_move (hm.works _ hmem) (hw _ hmem) hne
          have e3 : (s.step κ (.work i)).works[i]? = some (s.move κ s.works[i]).1 := by
            simp only [S.step, S.work, hg, hnid]
            simp [hi]
          unfold leftAt
          rw [e3, hg]
          exact hlt
        simp only [toDo]
        omega

theorem done_step (κ : Kind) (s : S) (op : Op) (h : s.stop = .done) : (s.step κ op).stop = .done := by
  rcases stop_step κ s op with e | ⟨e, _, _⟩ | ⟨e, _, _⟩ | ⟨e, _, _⟩ | ⟨e, _, _⟩ | ⟨i, l, e, _, _, _⟩
  · rw [e]; exact h
  all_goals rw [h] at e; simp at e

theorem done_run (κ : Kind) (ops : List Op) : ∀ s : S, s.stop = .done → (s.run κ ops).stop = .done := by
  induction ops with
  | nil => intro s h; exact h
  | cons op ops ih => intro s h; exact ih _ (done_step κ s op h)

/-- `Stop` comes to its end, whatever the other side and the application do meanwhile, when every thread of the server has its turn again and again, and no worker can begin to wait
for the other side any more: each of them, and each task whose request is on its way to the handler, either asks nothing more, or is refused what it asks, because the transport refuses requests on a
closed side (shared memory, stdio), or because the other side is closed already and the transport knows (in-memory). Workers that wait when `Stop` is called are no hindrance: their
requests are failed.

Partial: without the condition it is wrong, see the counterexamples. -/
theorem C108_ends_partial (κ : Kind) (before : List Op) (f : Nat → Op) (hf : Fair f) (hidle : (S.init.run κ before).stop = .idle)
    (hworks : ∀ t ∈ (S.init.run κ before).works, Placid κ (S.init.run κ before) t)
    (hreqs : ∀ p, Th.start (.task p) ∈ (S.init.run κ before).reqs → Mild κ (S.init.run κ before) p)
    (htaken : ∀ p, (S.init.run κ before).taken = some (.task p) → Mild κ (S.init.run κ before) p) :
    ∃ k, ∀ more, (S.init.run κ (before ++ .stop :: (turns f 0 k ++ more))).stop = .done := by
  have hv := valid_run (κ := κ) before valid_init
  generalize hs : S.init.run κ before = s at *
  have e : s.step κ .stop = { s with connected := false, stop := .closing } := by simp [S.step, S.stopOp, hidle]
  have h0 : Mellow κ (s.step κ .stop) := by
    rw [e]
    refine ⟨rfl, ?_, hreqs, htaken⟩
    intro t ht
    have := hworks t ht
    cases t <;> exact this
  have h1 : (s.step κ .stop).stop = .closing := by rw [e]
  obtain ⟨a, ha⟩ := closing_ends hf (s.step κ .stop) 0 ⟨h0, valid_step hv .stop, h1⟩
  obtain ⟨b, hb⟩ := swap_ends hf _ (0 + a) ha
  obtain ⟨c, hc⟩ := joining_ends hf _ (0 + a + b) hb
  refine ⟨a + b + c, ?_⟩
  intro more
  rw [run_append, hs]
  show ((s.step κ .stop).run κ (turns f 0 (a + b + c) ++ more)).stop = .done
  rw [run_append]
  apply done_run
  rw [turns_add f c (a + b) 0, turns_add f b a 0, run_append, run_append, ← Nat.add_assoc 0 a b]
  exact hc

/-! ### Waiting for ever -/

/-- A worker waits for an answer nobody will bring, and `Stop` waits for it. -/
structure Hung (k : Bool → Prog) (s : S) : Prop where
  work : s.works[0]? = some (.waiting k)
  loop : s.loop = false
  stop : ∃ l, s.stop = .joining (0 :: l)

theorem hung_step {κ : Kind} {k : Bool → Prog} {s : S} (h : Hung k s) (op : Op) : Hung k (s.step κ op) := by
  obtain ⟨l, hs⟩ := h.stop
  have hlt : 0 < s.works.length := (List.getElem?_eq_some_iff.1 h.work).1
  refine ⟨?_, ?_, ?_⟩
  · cases op with
    | act i =>
      simp only [S.step]
      rcases act_cases κ s i with e | ⟨t, _, _, _, e⟩ | ⟨p, _, e⟩
      · rw [e]; exact h.work
      · rw [e]; simp only [touch_works]; exact h.work
      · rw [e]
        simp only [S.add, touch_works]
        rw [List.getElem?_append_left hlt]
        exact h.work
    | work i =>
      simp only [S.step, S.work]
      split
      · exact h.work
      · rename_i t ht
        split
        · exact h.work
        · rename_i hid
          by_cases e : i = 0
          · subst e
            rw [h.work] at ht
            cases ht
            simp [Th.idle] at hid
          · show (s.works.set i _)[0]? = _
            rw [List.getElem?_set_ne e]
            exact h.work
    | endLoop => simp only [S.step, S.endLoopOp, h.loop]; (repeat' split) <;> first | exact h.work | simp_all
    | answer w i b => simp only [S.step, S.answerOp, h.loop]; exact h.work
    | fail late => simp only [S.step, S.failOp, hs]; exact h.work
    | request j => simp only [S.step]; (repeat' split) <;> exact h.work
    | take => simp only [S.step, S.takeOp]; (repeat' split) <;> exact h.work
    | give => simp only [S.step, S.giveOp]; (repeat' split) <;> exact h.work
    | peerDown => exact h.work
    | lost => simp only [S.step]; (repeat' split) <;> exact h.work
    | stop => simp only [S.step, S.stopOp]; (repeat' split) <;> exact h.work
    | swap => simp only [S.step, S.swapOp]; (repeat' split) <;> exact h.work
    | join => simp only [S.step, S.joinOp]; (repeat' split) <;> exact h.work
    | destroy => simp only [S.step, S.destroyOp]; (repeat' split) <;> exact h.work
  · rcases loop_step κ s op with e | e
    · rw [e]; exact h.loop
    · exact e
  · rcases stop_step κ s op with e | ⟨e, _, _⟩ | ⟨e, _, _⟩ | ⟨e, _, _⟩ | ⟨e, _, _⟩ | ⟨i, r, e, _, ho, _⟩
    · exact ⟨l, by rw [e]; exact hs⟩
    · rw [hs] at e; simp at e
    · rw [hs] at e; simp at e
    · rw [hs] at e; simp at e
    · rw [hs] at e; simp at e
    · rw [hs] at e
      cases e
      rw [h.work] at ho
      simp at ho

theorem hung_run {κ : Kind} {k : Bool → Prog} (ops : List Op) : ∀ {s : S}, Hung k s → (s.run κ ops).stop ≠ .done := by
  induction ops with
  | nil =>
    intro s h
    obtain ⟨l, hs⟩ := h.stop
    show s.stop ≠ .done
    rw [hs]
    simp
  | cons op ops ih => intro s h; exact ih (hung_step h op)

/-- With the in-memory transport, a task whose handler sends a request to the client after `Stop` has closed the transport waits for ever, and so does `Stop`: the transport does not refuse the
request, and the response is dropped. Whatever happens afterwards, for every handler that asks anything. -/
theorem C108_ask_counterexample (k : Bool → Prog) :
    ∃ before after, (S.init.run .memory before).stop = .idle ∧ (S.init.run .memory before).works = [.run (.ask k)] ∧
      ∀ more, (S.init.run .memory (before ++ .stop :: after ++ more)).stop ≠ .done := by
  refine ⟨[.request (.task (.ask k)), .take, .give, .act 0], [.endLoop, .fail true, .swap, .work 0, .work 0], ?_, ?_, ?_⟩
  · simp [S.run, S.step, S.init, S.takeOp, S.giveOp, S.act, S.add, S.move, S.touch, S.quiet, Th.idle, Th.isOver, Kind.apart]
  · simp [S.run, S.step, S.init, S.takeOp, S.giveOp, S.act, S.add, S.move, S.touch, S.quiet, Th.idle, Th.isOver, Kind.apart]
  · intro more
    rw [run_append]
    refine hung_run (k := k) more ⟨?_, ?_, ⟨[], ?_⟩⟩ <;>
      simp [S.run, S.step, S.init, S.takeOp, S.giveOp, S.act, S.add, S.move, S.work, S.stopOp, S.endLoopOp, S.failOp, S.swapOp, S.touch, S.quiet,
        Th.idle, Th.isOver, Th.failed, S.failAll, Kind.apart, Kind.waits, Kind.givesUp, Kind.refuses, Kind.knows]

/-- With every transport: a request of a task that `SendRequest` has let through enters the table of pending requests after `Close` has emptied it, and `Stop` waits for ever. -/
theorem C108_race_counterexample (κ : Kind) (k : Bool → Prog) :
    ∃ before after, (S.init.run κ before).stop = .idle ∧ (S.init.run κ before).works = [.checked k] ∧
      ∀ more, (S.init.run κ (before ++ .stop :: after ++ more)).stop ≠ .done := by
  refine ⟨[.request (.task (.ask k)), .take, .give, .act 0, .work 0], [.endLoop, .fail true, .swap, .work 0], ?_, ?_, ?_⟩
  · cases κ <;> simp [S.run, S.step, S.init, S.takeOp, S.giveOp, S.act, S.add, S.move, S.work, S.touch, S.quiet, Th.idle, Th.isOver, Kind.apart, Kind.refuses]
  · cases κ <;> simp [S.run, S.step, S.init, S.takeOp, S.giveOp, S.act, S.add, S.move, S.work, S.touch, S.quiet, Th.idle, Th.isOver, Kind.apart, Kind.refuses]
  · intro more
    rw [run_append]
    refine hung_run (k := k) more ⟨?_, ?_, ⟨[], ?_⟩⟩ <;> cases κ <;>
      simp [S.run, S.step, S.init, S.takeOp, S.giveOp, S.act, S.add, S.move, S.work, S.stopOp, S.endLoopOp, S.failOp, S.swapOp, S.touch, S.quiet,
        Th.idle, Th.isOver, Th.failed, S.failAll, Kind.apart, Kind.waits, Kind.givesUp, Kind.refuses, Kind.knows]

/-- The hypotheses of the theorem meet, for a worker that waits and one that has something to ask: shared memory and stdio refuse. -/
example (κ : Kind) (hκ : κ.refuses = true) : let before : List Op := [.request (.task (.ask fun _ => .ask fun _ => .ret)), .take, .give, .act 0, .work 0, .work 0,
      .request (.task (.ask fun _ => .ret)), .take, .give, .act 1]
    (S.init.run κ before).stop = .idle ∧ (S.init.run κ before).works = [.waiting fun _ => .ask fun _ => .ret, .run (.ask fun _ => .ret)] ∧
    (∀ t ∈ (S.init.run κ before).works, Placid κ (S.init.run κ before) t) := by
  cases κ <;>
    simp [S.run, S.step, S.init, S.takeOp, S.giveOp, S.act, S.add, S.move, S.work, S.touch, S.quiet, Th.idle, Th.isOver, Kind.apart, Kind.refuses, Kind.knows, Placid, Mild] at hκ ⊢

/-- Fair executions exist: number the steps and take numbers 0; 0, 1; 0, 1, 2; and so on. -/
example : ∃ f, Fair f := by
  let code : Nat → Op := fun c => if c = 0 then .give else if c = 1 then .endLoop else if c = 2 then .fail true else if c = 3 then .swap else if c = 4 then .join else .work (c - 5)
  let low : Nat → Nat := fun n => Nat.rec (motive := fun _ => Nat × Nat) (0, 0) (fun _ p => if p.1 = p.2 then (0, p.2 + 1) else (p.1 + 1, p.2)) n |>.1
  have hpair : ∀ b a, a ≤ b → ∃ n, b ≤ n ∧ (Nat.rec (motive := fun _ => Nat × Nat) (0, 0) (fun _ p => if p.1 = p.2 then (0, p.2 + 1) else (p.1 + 1, p.2)) n) = (a, b) := by
    intro b
    induction b with
    | zero =>
      intro a ha
      obtain rfl : a = 0 := by omega
      exact ⟨0, Nat.le_refl _, rfl⟩
    | succ b ih =>
      intro a
      induction a with
      | zero =>
        intro _
        obtain ⟨n, hn, e⟩ := ih b (Nat.le_refl _)
        exact ⟨n + 1, by omega, by dsimp only; rw [e]; simp⟩
      | succ a iha =>
        intro ha
        obtain ⟨n, hn, e⟩ := iha (by omega)
        exact ⟨n + 1, by omega, by dsimp only; rw [e]; exact if_neg (show ¬ a = b + 1 by omega)⟩
  refine ⟨fun n => code (low n), ?_⟩
  intro op ho n
  have hc : ∃ c, code c = op := by
    cases ho with
    | give => exact ⟨0, rfl⟩
    | endLoop => exact ⟨1, rfl⟩
    | fail => exact ⟨2, rfl⟩
    | swap => exact ⟨3, rfl⟩
    | join => exact ⟨4, rfl⟩
    | work i => exact ⟨i + 5, by simp [code]⟩
  obtain ⟨c, hc⟩ := hc
  obtain ⟨m, hm, e⟩ := hpair (n + c) c (by omega)
  exact ⟨m, by omega, by simp only [low]; rw [e]; exact hc⟩

end Verif
