import Verif.Life.Model

/-!
Lemmas about the end of a server: what a step does to a thread, that a worker is waited for, and the rule for executions in which everybody gets their turn.
-/

namespace Verif.Life

/-- What one step may make of a thread. -/
def Next (κ : Kind) (s : S) (t t' : Th) : Prop :=
  t' = t ∨ t' = (s.move κ t).1 ∨ t' = t.failed ∨ ∃ b, t' = t.answered b

theorem move_over (κ : Kind) (s : S) : (s.move κ .over).1 = .over := rfl

theorem next_over {κ : Kind} {s : S} {t' : Th} (h : Next κ s .over t') : t' = .over := by
  rcases h with h | h | h | ⟨b, h⟩ <;> exact h

theorem touch_works (s : S) : s.touch.works = s.works := by unfold S.touch; split <;> rfl
theorem touch_reqs (s : S) : s.touch.reqs = s.reqs := by unfold S.touch; split <;> rfl
theorem touch_group (s : S) : s.touch.group = s.group := by unfold S.touch; split <;> rfl
theorem touch_stop (s : S) : s.touch.stop = s.stop := by unfold S.touch; split <;> rfl
theorem touch_taken (s : S) : s.touch.taken = s.taken := by unfold S.touch; split <;> rfl
theorem touch_loop (s : S) : s.touch.loop = s.loop := by unfold S.touch; split <;> rfl
theorem touch_connected (s : S) : s.touch.connected = s.connected := by unfold S.touch; split <;> rfl
theorem touch_peer (s : S) : s.touch.peer = s.peer := by unfold S.touch; split <;> rfl
theorem touch_gone (s : S) : s.touch.gone = s.gone := by unfold S.touch; split <;> rfl
theorem touch_alive {s : S} (h : s.gone = false) : s.touch = s := by unfold S.touch; simp [h]

/-- A serving thread either goes on alone or starts one worker. -/
theorem act_cases (κ : Kind) (s : S) (i : Nat) :
    s.act κ i = s ∨ (∃ t, s.reqs[i]? = some t ∧ t.idle = false ∧ (s.move κ t).2 = none ∧ s.act κ i = { s.touch with reqs := s.reqs.set i (s.move κ t).1 }) ∨
    ∃ p, s.reqs[i]? = some (.start (.task p)) ∧ s.act κ i = ({ s.touch with reqs := s.reqs.set i .over } : S).add p := by
  unfold S.act
  cases h : s.reqs[i]? with
  | none => exact .inl rfl
  | some t =>
    cases ht : t.idle with
    | true => exact .inl (by simp [ht])
    | false =>
      refine .inr ?_
      cases t with
      | start j =>
        cases j with
        | call p => exact .inl ⟨_, rfl, rfl, rfl, rfl⟩
        | task p => exact .inr ⟨p, rfl, rfl⟩
      | run p =>
        cases p with
        | ret => exact .inl ⟨_, rfl, rfl, rfl, rfl⟩
        | ask k =>
          refine .inl ⟨_, rfl, rfl, ?_, ?_⟩
          · simp only [S.move]; split <;> rfl
          · cases hc : (κ.refuses && !s.connected) <;> simp [S.move, Th.idle, hc]
      | checked k =>
        refine .inl ⟨_, rfl, rfl, ?_, ?_⟩
        · simp only [S.move]; split <;> rfl
        · cases hc : (κ.knows && !s.peer) <;> simp [S.move, Th.idle, hc]
      | waiting k => simp [Th.idle] at ht
      | over => simp [Th.idle] at ht

/-- What a step does to a worker. -/
theorem works_next (κ : Kind) (s : S) (op : Op) {i : Nat} {t : Th} (h : s.works[i]? = some t) :
    ∃ t', (s.step κ op).works[i]? = some t' ∧ Next κ s t t' := by
  have hi : i < s.works.length := (List.getElem?_eq_some_iff.1 h).1
  have keep : ∀ s' : S, s'.works = s.works → ∃ t', s'.works[i]? = some t' ∧ Next κ s t t' := fun s' e => ⟨t, by rw [e]; exact h, .inl rfl⟩
  have failing : ∀ s' : S, s'.works = s.works.map Th.failed → ∃ t', s'.works[i]? = some t' ∧ Next κ s t t' :=
    fun s' e => ⟨t.failed, by rw [e, List.getElem?_map, h]; rfl, .inr (.inr (.inl rfl))⟩
  cases op with
  | request j => simp only [S.step]; split <;> exact keep _ rfl
  | take => simp only [S.step, S.takeOp]; split <;> (try split) <;> exact keep _ rfl
  | give => simp only [S.step, S.giveOp]; split <;> exact keep _ rfl
  | endLoop =>
    simp only [S.step, S.endLoopOp]
    split
    · exact keep _ rfl
    · split
      · cases κ with
        | memory => exact keep _ rfl
        | shared => exact failing _ rfl
        | stdio => exact keep _ (touch_works s)
      · exact keep _ rfl
  | act j =>
    simp only [S.step]
    rcases act_cases κ s j with e | ⟨t, _, _, _, e⟩ | ⟨p, _, e⟩
    · rw [e]; exact keep _ rfl
    · rw [e]; exact keep _ (touch_works s)
    · rw [e]
      refine ⟨t, ?_, .inl rfl⟩
      simp only [S.add, touch_works]
      rw [List.getElem?_append_left hi]
      exact h
  | work j =>
    simp only [S.step, S.work]
    split
    · exact keep _ rfl
    · rename_i u hu
      split
      · exact keep _ rfl
      · by_cases e : j = i
        · subst e
          rw [h] at hu
          cases hu
          exact ⟨_, by simp [hi], .inr (.inl rfl)⟩
        · refine ⟨t, ?_, .inl rfl⟩
          show (s.works.set j _)[i]? = some t
          rw [List.getElem?_set_ne e]
          exact h
  | answer w j b =>
    simp only [S.step, S.answerOp]
    split
    · split
      · by_cases e : j = i
        · subst e
          refine ⟨t.answered b, ?_, .inr (.inr (.inr ⟨b, rfl⟩))⟩
          show (s.works.modify j _)[j]? = _
          simp [List.getElem?_modify, h]
        · refine ⟨t, ?_, .inl rfl⟩
          show (s.works.modify j _)[i]? = _
          simp [List.getElem?_modify, h, e]
      · exact keep _ rfl
    · exact keep _ rfl
  | peerDown => exact keep _ rfl
  | lost => simp only [S.step]; split <;> exact keep _ rfl
  | stop => simp only [S.step, S.stopOp]; split <;> exact keep _ rfl
  | fail late =>
    simp only [S.step, S.failOp]
    split
    · split
      · exact failing _ rfl
      · exact keep _ rfl
    · exact keep _ rfl
  | swap => simp only [S.step, S.swapOp]; split <;> exact keep _ rfl
  | join =>
    simp only [S.step, S.joinOp]
    split
    · exact keep _ rfl
    · split <;> exact keep _ rfl
    · exact keep _ rfl
  | destroy =>
    simp only [S.step, S.destroyOp]
    split
    · split <;> exact keep _ rfl
    · split <;> exact keep _ rfl
    · exact keep _ rfl

/-- A worker that has ended stays so. -/
theorem over_step (κ : Kind) (s : S) (op : Op) {i : Nat} (h : s.works[i]? = some .over) : (s.step κ op).works[i]? = some .over := by
  obtain ⟨t', h', n⟩ := works_next κ s op h
  rw [next_over n] at h'
  exact h'

/-- The futures that `Stop` will wait for or waits for. -/
def S.held (s : S) : List Nat :=
  match s.stop with
  | .joining l => l
  | .done => []
  | _ => s.group

theorem held_eq {s s' : S} (h1 : s'.stop = s.stop) (h2 : s'.group = s.group) : s'.held = s.held := by unfold S.held; rw [h1, h2]

/-- No future is dropped while its worker runs. -/
theorem held_step (κ : Kind) (s : S) (op : Op) {i : Nat} {t : Th} (h : s.works[i]? = some t) (ht : t ≠ .over) (hm : i ∈ s.held) : i ∈ (s.step κ op).held := by
  have keep : ∀ s' : S, s'.stop = s.stop → s'.group = s.group → i ∈ s'.held := fun s' e1 e2 => by rw [held_eq e1 e2]; exact hm
  cases op with
  | request j => simp only [S.step]; split <;> exact keep _ rfl rfl
  | take => simp only [S.step, S.takeOp]; split <;> (try split) <;> exact keep _ rfl rfl
  | give => simp only [S.step, S.giveOp]; split <;> exact keep _ rfl rfl
  | endLoop =>
    simp only [S.step, S.endLoopOp]
    split
    · exact keep _ rfl rfl
    · split
      · cases κ with
        | memory => exact keep _ rfl rfl
        | shared => exact keep _ rfl rfl
        | stdio => exact keep _ (touch_stop s) (touch_group s)
      · exact keep _ rfl rfl
  | act j =>
    simp only [S.step]
    rcases act_cases κ s j with e | ⟨t, _, _, _, e⟩ | ⟨p, _, e⟩
    · rw [e]; exact keep _ rfl rfl
    · rw [e]; exact keep _ (touch_stop s) (touch_group s)
    · rw [e]
      have hg : i ∈ s.group → i ∈ (({ s.touch with reqs := s.reqs.set j .over } : S).add p).group := by
        intro hg
        simp only [S.add, touch_works, touch_group, List.mem_append, List.mem_filter]
        refine .inl ⟨hg, ?_⟩
        rw [h]
        cases t <;> simp [Th.isOver] at ht ⊢
      have hs : (({ s.touch with reqs := s.reqs.set j .over } : S).add p).stop = s.stop := by simp [S.add, touch_stop]
      unfold S.held at hm ⊢
      rw [hs]
      cases hst : s.stop with
      | joining l => rw [hst] at hm; exact hm
      | done => rw [hst] at hm; exact hm
      | idle => rw [hst] at hm; exact hg hm
      | closing => rw [hst] at hm; exact hg hm
      | swap => rw [hst] at hm; exact hg hm
  | work j =>
    simp only [S.step, S.work]
    split
    · exact keep _ rfl rfl
    · split
      · exact keep _ rfl rfl
      · exact keep _ (touch_stop s) (touch_group s)
  | answer w j b =>
    simp only [S.step, S.answerOp]
    split
    · split <;> exact keep _ rfl rfl
    · exact keep _ rfl rfl
  | peerDown => exact keep _ rfl rfl
  | lost => simp only [S.step]; split <;> exact keep _ rfl rfl
  | stop =>
    simp only [S.step, S.stopOp]
    split
    · rename_i hst
      unfold S.held at hm ⊢
      rw [hst] at hm
      exact hm
    · exact keep _ rfl rfl
  | fail late =>
    simp only [S.step, S.failOp]
    split
    · rename_i hst
      split
      · unfold S.held at hm ⊢
        rw [hst] at hm
        exact hm
      · exact keep _ rfl rfl
    · exact keep _ rfl rfl
  | swap =>
    simp only [S.step, S.swapOp]
    split
    · rename_i hst
      unfold S.held at hm ⊢
      rw [hst] at hm
      exact hm
    · exact keep _ rfl rfl
  | join =>
    simp only [S.step, S.joinOp]
    split
    · rename_i hst
      unfold S.held at hm
      rw [hst] at hm
      exact absurd hm (by simp)
    · rename_i j l hst
      split
      · rename_i ho
        unfold S.held at hm ⊢
        rw [hst] at hm
        rcases List.mem_cons.1 hm with e | e
        · rw [e, ho] at h
          cases h
          exact absurd rfl ht
        · exact e
      · exact keep _ rfl rfl
    · exact keep _ rfl rfl
  | destroy =>
    simp only [S.step, S.destroyOp]
    split
    · split <;> exact keep _ rfl rfl
    · split <;> exact keep _ rfl rfl
    · exact keep _ rfl rfl

/-- The first `n` workers have ended or are waited for. -/
def Track (n : Nat) (s : S) : Prop := ∀ i, i < n → ∃ t, s.works[i]? = some t ∧ (t = .over ∨ i ∈ s.held)

theorem track_step (κ : Kind) {n : Nat} {s : S} (h : Track n s) (op : Op) : Track n (s.step κ op) := by
  intro i hi
  obtain ⟨t, ht, hc⟩ := h i hi
  obtain ⟨t', ht', hn⟩ := works_next κ s op ht
  refine ⟨t', ht', ?_⟩
  by_cases ho : t = .over
  · subst ho
    exact .inl (next_over hn)
  · rcases hc with hc | hc
    · exact absurd hc ho
    · exact .inr (held_step κ s op ht ho hc)

theorem track_run (κ : Kind) {n : Nat} (ops : List Op) : ∀ {s : S}, Track n s → Track n (s.run κ ops) := by
  induction ops with
  | nil => intro s h; exact h
  | cons op ops ih => intro s h; exact ih (track_step κ h op)

/-- The number of workers grows by one at most, and a new one is in the group. -/
theorem grown_step (κ : Kind) (s : S) (op : Op) :
    (s.step κ op).works.length = s.works.length ∨
    ((s.step κ op).works.length = s.works.length + 1 ∧ s.works.length ∈ (s.step κ op).group ∧ (s.step κ op).stop = s.stop) := by
  cases op with
  | act j =>
    simp only [S.step]
    rcases act_cases κ s j with e | ⟨t, _, _, _, e⟩ | ⟨p, _, e⟩
    · exact .inl (by rw [e])
    · exact .inl (by rw [e]; simp [touch_works])
    · exact .inr (by rw [e]; simp [S.add, touch_works, touch_stop])
  | request j => left; simp only [S.step]; split <;> rfl
  | take => left; simp only [S.step, S.takeOp]; split <;> (try split) <;> rfl
  | give => left; simp only [S.step, S.giveOp]; split <;> rfl
  | endLoop => left; simp only [S.step, S.endLoopOp]; split <;> (try split) <;> (try rfl); cases κ <;> simp [touch_works, S.failAll]
  | work j => left; simp only [S.step, S.work]; split <;> (try split) <;> (try rfl); simp
  | answer w j b => left; simp only [S.step, S.answerOp]; split <;> (try split) <;> (try rfl); simp
  | peerDown => exact .inl rfl
  | lost => left; simp only [S.step]; split <;> rfl
  | stop => left; simp only [S.step, S.stopOp]; split <;> rfl
  | fail late => left; simp only [S.step, S.failOp]; split <;> (try split) <;> (try rfl); simp [S.failAll]
  | swap => left; simp only [S.step, S.swapOp]; split <;> rfl
  | join => left; simp only [S.step, S.joinOp]; split <;> (try split) <;> rfl
  | destroy => left; simp only [S.step, S.destroyOp]; split <;> (try split) <;> rfl

/-- The futures of the group stay there until `Stop` takes them, or their workers have ended. -/
theorem group_step (κ : Kind) (s : S) (op : Op) {i : Nat} {t : Th} (h : s.works[i]? = some t) (ht : t ≠ .over) (hm : i ∈ s.group) :
    i ∈ (s.step κ op).held ∨ i ∈ (s.step κ op).group := by
  have keep : ∀ s' : S, s'.group = s.group → i ∈ s'.held ∨ i ∈ s'.group := fun s' e2 => .inr (by rw [e2]; exact hm)
  cases op with
  | request j => simp only [S.step]; split <;> exact keep _ rfl
  | take => simp only [S.step, S.takeOp]; split <;> (try split) <;> exact keep _ rfl
  | give => simp only [S.step, S.giveOp]; split <;> exact keep _ rfl
  | endLoop =>
    simp only [S.step, S.endLoopOp]
    split
    · exact keep _ rfl
    · split
      · cases κ with
        | memory => exact keep _ rfl
        | shared => exact keep _ rfl
        | stdio => exact keep _ (touch_group s)
      · exact keep _ rfl
  | act j =>
    simp only [S.step]
    rcases act_cases κ s j with e | ⟨t, _, _, _, e⟩ | ⟨p, _, e⟩
    · rw [e]; exact keep _ rfl
    · rw [e]; exact keep _ (touch_group s)
    · rw [e]
      right
      simp only [S.add, touch_works, touch_group, List.mem_append, List.mem_filter]
      refine .inl ⟨hm, ?_⟩
      rw [h]
      cases t <;> simp [Th.isOver] at ht ⊢
  | work j =>
    simp only [S.step, S.work]
    split
    · exact keep _ rfl
    · split
      · exact keep _ rfl
      · exact keep _ (touch_group s)
  | answer w j b => simp only [S.step, S.answerOp]; split <;> (try split) <;> exact keep _ rfl
  | peerDown => exact keep _ rfl
  | lost => simp only [S.step]; split <;> exact keep _ rfl
  | stop => simp only [S.step, S.stopOp]; split <;> exact keep _ rfl
  | fail late => simp only [S.step, S.failOp]; split <;> (try split) <;> exact keep _ rfl
  | swap =>
    simp only [S.step, S.swapOp]
    split
    · exact .inl hm
    · exact keep _ rfl
  | join => simp only [S.step, S.joinOp]; split <;> (try split) <;> exact keep _ rfl
  | destroy => simp only [S.step, S.destroyOp]; split <;> (try split) <;> exact keep _ rfl

/-- Every worker has ended, or is waited for, or is in the group. -/
def Known (s : S) : Prop := ∀ i, i < s.works.length → ∃ t, s.works[i]? = some t ∧ (t = .over ∨ i ∈ s.held ∨ i ∈ s.group)

theorem known_init : Known S.init := fun i hi => absurd hi (by simp [S.init])

theorem known_step (κ : Kind) {s : S} (h : Known s) (op : Op) : Known (s.step κ op) := by
  intro i hi
  by_cases hlt : i < s.works.length
  · obtain ⟨t, ht, hc⟩ := h i hlt
    obtain ⟨t', ht', hn⟩ := works_next κ s op ht
    refine ⟨t', ht', ?_⟩
    by_cases ho : t = .over
    · subst ho
      exact .inl (next_over hn)
    · rcases hc with hc | hc | hc
      · exact absurd hc ho
      · exact .inr (.inl (held_step κ s op ht ho hc))
      · exact .inr (group_step κ s op ht ho hc)
  · rcases grown_step κ s op with e | ⟨e, hm, _⟩
    · omega
    · have : i = s.works.length := by omega
      subst this
      exact ⟨_, List.getElem?_eq_getElem hi, .inr (.inr hm)⟩

theorem known_run (κ : Kind) (ops : List Op) : ∀ {s : S}, Known s → Known (s.run κ ops) := by
  induction ops with
  | nil => intro s h; exact h
  | cons op ops ih => intro s h; exact ih (known_step κ h op)

theorem known_track {s : S} (h : Known s) (hs : s.stop = .idle) : Track s.works.length s := by
  intro i hi
  obtain ⟨t, ht, hc⟩ := h i hi
  refine ⟨t, ht, ?_⟩
  have : s.held = s.group := by unfold S.held; rw [hs]
  rw [this] at hc ⊢
  rcases hc with hc | hc | hc
  · exact .inl hc
  · exact .inr hc
  · exact .inr hc

theorem run_append (κ : Kind) (a b : List Op) : ∀ s : S, s.run κ (a ++ b) = (s.run κ a).run κ b := by
  induction a with
  | nil => intro s; rfl
  | cons op a ih => intro s; exact ih _

end Verif.Life
