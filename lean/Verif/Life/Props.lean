import Verif.Life.Fair

/-!
C107: when `Stop` is over, nothing of the server runs any more and the server may be destroyed. C108: `Stop` comes to its end.
-/

namespace Verif
open Life

/-! ### C107 -/

/-- Nothing runs: every serving thread and every worker has ended, and no message is on its way to a handler. -/
def AtRest (s : S) : Prop := (∀ t ∈ s.reqs, t = .over) ∧ (∀ t ∈ s.works, t = .over) ∧ s.taken = none

/-- The invariant of a `Stop` that was called when no request was under way. -/
structure Still (κ : Kind) (s : S) : Prop where
  reqs : ∀ t ∈ s.reqs, t = .over
  taken : s.taken = none
  conn : s.connected = false
  idle : s.stop ≠ .idle
  ub : s.ub = false
  gone : s.gone = true → ∀ t ∈ s.works, t = .over
  std : κ = .stdio → s.loop = true → s.stop = .closing
  fresh : s.gone = true → s.stop = .done
  known : Known s

theorem still_act {κ : Kind} {s : S} (h : Still κ s) (i : Nat) : s.act κ i = s := by
  unfold S.act
  cases hr : s.reqs[i]? with
  | none => rfl
  | some t =>
    have := h.reqs t (List.mem_iff_getElem?.2 ⟨i, hr⟩)
    subst this
    rfl

theorem still_ub {κ : Kind} {s : S} (h : Still κ s) (op : Op) : (s.step κ op).ub = false := by
  have hu := h.ub
  cases op with
  | act i => simp only [S.step, still_act h]; exact hu
  | endLoop =>
    simp only [S.step, S.endLoopOp, h.taken]
    split
    · rename_i hc
      simp only [Bool.and_eq_true, Bool.not_eq_true'] at hc
      cases κ with
      | memory => exact hu
      | shared => exact hu
      | stdio =>
        have hst := h.std rfl hc.1.1
        have hg : s.gone = false := by
          cases hgo : s.gone with
          | false => rfl
          | true => have := h.fresh hgo; rw [hst] at this; simp at this
        simp [touch_alive hg, hu]
    · exact hu
  | work i =>
    simp only [S.step, S.work]
    split
    · exact hu
    · rename_i t ht
      split
      · exact hu
      · rename_i hid
        cases hgo : s.gone with
        | false => simp [touch_alive hgo, hu]
        | true =>
          have := h.gone hgo t (List.mem_iff_getElem?.2 ⟨i, ht⟩)
          subst this
          simp [Th.idle] at hid
  | request j => simp only [S.step]; (repeat' split) <;> exact hu
  | take => simp only [S.step, S.takeOp]; (repeat' split) <;> exact hu
  | give => simp only [S.step, S.giveOp]; (repeat' split) <;> exact hu
  | answer w i b => simp only [S.step, S.answerOp]; (repeat' split) <;> exact hu
  | peerDown => exact hu
  | lost => simp only [S.step]; (repeat' split) <;> exact hu
  | stop => simp only [S.step, S.stopOp]; (repeat' split) <;> exact hu
  | fail late => simp only [S.step, S.failOp]; (repeat' split) <;> exact hu
  | swap => simp only [S.step, S.swapOp]; (repeat' split) <;> exact hu
  | join => simp only [S.step, S.joinOp]; (repeat' split) <;> exact hu
  | destroy => simp only [S.step, S.destroyOp]; (repeat' split) <;> exact hu

theorem gone_step (κ : Kind) (s : S) (op : Op) : (s.step κ op).gone = s.gone ∨
    (op = .destroy ∧ (s.stop = .idle ∨ s.stop = .done) ∧ s.group.all (fun i => (s.works[i]?.map Th.isOver).getD true) = true ∧ s.step κ op = { s with gone := true }) := by
  cases op with
  | act i =>
    left
    simp only [S.step]
    rcases act_cases κ s i with e | ⟨t, ht, _, _, e⟩ | ⟨p, hp, e⟩
    · rw [e]
    · rw [e]; simp [touch_gone]
    · rw [e]; simp [S.add, touch_gone]
  | endLoop => left; simp only [S.step, S.endLoopOp]; (repeat' split) <;> simp [touch_gone, S.failAll]
  | work i => left; simp only [S.step, S.work]; (repeat' split) <;> simp [touch_gone]
  | request j => left; simp only [S.step]; split <;> rfl
  | take => left; simp only [S.step, S.takeOp]; (repeat' split) <;> rfl
  | give => left; simp only [S.step, S.giveOp]; (repeat' split) <;> rfl
  | answer w i b => left; simp only [S.step, S.answerOp]; (repeat' split) <;> rfl
  | peerDown => exact .inl rfl
  | lost => left; simp only [S.step]; (repeat' split) <;> rfl
  | stop => left; simp only [S.step, S.stopOp]; (repeat' split) <;> rfl
  | fail late => left; simp only [S.step, S.failOp]; (repeat' split) <;> rfl
  | swap => left; simp only [S.step, S.swapOp]; (repeat' split) <;> rfl
  | join => left; simp only [S.step, S.joinOp]; (repeat' split) <;> rfl
  | destroy =>
    simp only [S.step, S.destroyOp]
    split
    · rename_i h
      split
      · rename_i hg; exact .inr ⟨trivial, .inl h, hg, rfl⟩
      · exact .inl rfl
    · rename_i h
      split
      · rename_i hg; exact .inr ⟨trivial, .inr h, hg, rfl⟩
      · exact .inl rfl
    · exact .inl rfl

/-- When nothing is waited for and the futures of the group are ready, every worker has ended. -/
theorem all_over {s : S} (h : Known s) (hd : s.stop = .done) (hg : s.group.all (fun i => (s.works[i]?.map Th.isOver).getD true) = true) : ∀ t ∈ s.works, t = .over := by
  intro t ht
  obtain ⟨i, hi⟩ := List.mem_iff_getElem?.1 ht
  obtain ⟨u, hu, hc⟩ := h i (List.getElem?_eq_some_iff.1 hi).1
  rw [hi] at hu
  cases hu
  rcases hc with hc | hc | hc
  · exact hc
  · unfold S.held at hc; rw [hd] at hc; simp at hc
  · have := List.all_eq_true.1 hg i hc
    rw [hi] at this
    cases t <;> simp [Th.isOver] at this ⊢

theorem still_step {κ : Kind} {s : S} (h : Still κ s) (op : Op) (hl : κ = .stdio → op ≠ .fail true) : Still κ (s.step κ op) := by
  have hreqs : ∀ t ∈ (s.step κ op).reqs, t = .over := by
    intro t ht
    rcases reqs_mem κ s op ht with ⟨u, hu, hn⟩ | ⟨j, hj, _⟩
    · rw [h.reqs u hu] at hn; exact next_over hn
    · rw [h.taken] at hj; simp at hj
  have htaken : (s.step κ op).taken = none := by
    rcases taken_step κ s op h.conn with e | ⟨_, e⟩
    · rw [e]; exact h.taken
    · exact e
  have hworks : ∀ t' ∈ (s.step κ op).works, ∃ t ∈ s.works, Next κ s t t' := by
    intro t' ht
    rcases works_mem κ s op ht with e | ⟨p, hp, _⟩
    · exact e
    · have := h.reqs _ hp; simp at this
  have hover : (∀ t ∈ s.works, t = .over) → ∀ t ∈ (s.step κ op).works, t = .over := by
    intro ho t ht
    obtain ⟨u, hu, hn⟩ := hworks t ht
    rw [ho u hu] at hn
    exact next_over hn
  refine ⟨hreqs, htaken, connected_step κ s op h.conn, ?_, still_ub h op, ?_, ?_, ?_, known_step κ h.known op⟩
  · rcases stop_step κ s op with e | ⟨e, _, _⟩ | ⟨_, _, e⟩ | ⟨_, _, e⟩ | ⟨_, _, e⟩ | ⟨i, l, _, _, _, e⟩
    · rw [e]; exact h.idle
    · exact absurd e h.idle
    all_goals rw [e]; simp
  · intro hg
    rcases gone_step κ s op with e | ⟨_, hst, hgr, e⟩
    · rw [e] at hg
      exact hover (h.gone hg)
    · rcases hst with hst | hst
      · exact absurd hst h.idle
      · exact hover (all_over h.known hst hgr)
  · intro hk hloop
    have hloop' : s.loop = true := by
      rcases loop_step κ s op with e | e
      · rw [← e]; exact hloop
      · rw [e] at hloop; simp at hloop
    have hc := h.std hk hloop'
    rcases stop_step κ s op with e | ⟨e, _, _⟩ | ⟨_, ⟨l, hop⟩, e⟩ | ⟨e, _, _⟩ | ⟨e, _, _⟩ | ⟨i, l, e, _, _, _⟩
    · rw [e]; exact hc
    · rw [hc] at e; simp at e
    · exfalso
      subst hop
      have hlf : l = false := by
        cases l with
        | false => rfl
        | true => exact absurd rfl (hl hk)
      subst hk
      have : (s.step .stdio (.fail l)).stop = .closing := by simp [S.step, S.failOp, hc, hlf, hloop', Kind.waits]
      rw [e] at this
      simp at this
    · rw [hc] at e; simp at e
    · rw [hc] at e; simp at e
    · rw [hc] at e; simp at e
  · intro hg
    rcases gone_step κ s op with e | ⟨_, hst, hgr, e⟩
    · rw [e] at hg
      have hd := h.fresh hg
      rcases stop_step κ s op with e | ⟨e, _, _⟩ | ⟨e, _, _⟩ | ⟨e, _, _⟩ | ⟨e, _, _⟩ | ⟨i, l, e, _, _, _⟩
      · rw [e]; exact hd
      all_goals rw [hd] at e; simp at e
    · rw [e]
      rcases hst with hst | hst
      · exact absurd hst h.idle
      · exact hst

theorem still_run {κ : Kind} (ops : List Op) : ∀ {s : S}, Still κ s → (κ = .stdio → .fail true ∉ ops) → Still κ (s.run κ ops) := by
  induction ops with
  | nil => intro s h _; exact h
  | cons op ops ih =>
    intro s h hl
    exact ih (still_step h op (fun hk e => hl hk (by simp [e]))) (fun hk hm => hl hk (List.mem_cons_of_mem _ hm))

/-- Undefined behaviour needs a destroyed server. -/
theorem ub_gone (κ : Kind) (ops : List Op) : ∀ (s : S), (s.ub = true → s.gone = true) → ((s.run κ ops).ub = true → (s.run κ ops).gone = true) := by
  induction ops with
  | nil => intro s h; exact h
  | cons op ops ih =>
    intro s h
    refine ih _ ?_
    have ht : s.touch.ub = true → s.gone = true := by
      unfold S.touch
      split
      · intro _; assumption
      · exact h
    cases op with
    | act i =>
      simp only [S.step]
      rcases act_cases κ s i with e | ⟨t, _, _, _, e⟩ | ⟨p, _, e⟩
      · rw [e]; exact h
      · rw [e]; simpa [touch_gone] using ht
      · rw [e]; simpa [S.add, touch_gone] using ht
    | endLoop =>
      simp only [S.step, S.endLoopOp]
      split
      · exact h
      · split
        · cases κ with
          | memory => exact h
          | shared => exact h
          | stdio => simpa [touch_gone] using ht
        · exact h
    | work i =>
      simp only [S.step, S.work]
      split
      · exact h
      · split
        · exact h
        · simpa [touch_gone] using ht
    | request j => simp only [S.step]; (repeat' split) <;> exact h
    | take => simp only [S.step, S.takeOp]; (repeat' split) <;> exact h
    | give => simp only [S.step, S.giveOp]; (repeat' split) <;> exact h
    | answer w i b => simp only [S.step, S.answerOp]; (repeat' split) <;> exact h
    | peerDown => exact h
    | lost => simp only [S.step]; (repeat' split) <;> exact h
    | stop => simp only [S.step, S.stopOp]; (repeat' split) <;> exact h
    | fail late => simp only [S.step, S.failOp]; (repeat' split) <;> exact h
    | swap => simp only [S.step, S.swapOp]; (repeat' split) <;> exact h
    | join => simp only [S.step, S.joinOp]; (repeat' split) <;> exact h
    | destroy => simp only [S.step, S.destroyOp]; (repeat' split) <;> first | exact h | exact fun _ => rfl

/-- Whatever else goes on, the tasks that were begun before `Stop` was called have ended when it is over.

Partial: tasks begun while `Stop` is under way, and calls; see the counterexamples. -/
theorem C107_tasks_partial (κ : Kind) (before after : List Op) (hidle : (S.init.run κ before).stop = .idle)
    (hdone : (S.init.run κ (before ++ .stop :: after)).stop = .done) :
    ∀ i, i < (S.init.run κ before).works.length → (S.init.run κ (before ++ .stop :: after)).works[i]? = some .over := by
  intro i hi
  rw [run_append] at hdone ⊢
  have hk := known_track (known_run κ before known_init) hidle
  obtain ⟨t, ht, hc⟩ := track_run κ (.stop :: after) hk i hi
  rcases hc with hc | hc
  · rw [ht, hc]
  · unfold S.held at hc; rw [hdone] at hc; simp at hc

/-- When no request was being served and no message was on its way to a handler as `Stop` was called, then nothing of the server runs when `Stop` is over, nothing begins afterwards, and
the server may be destroyed: nothing uses it any more. With the stdio transport this needs the reading thread to end within the time limit of `Close`.

Partial: without the condition all of this is wrong, see the counterexamples. -/
theorem C107_quiet_partial (κ : Kind) (before after : List Op) (hidle : (S.init.run κ before).stop = .idle) (halive : (S.init.run κ before).gone = false)
    (hreqs : ∀ t ∈ (S.init.run κ before).reqs, t = .over) (htaken : (S.init.run κ before).taken = none)
    (hlate : κ = .stdio → .fail true ∉ after) :
    (S.init.run κ (before ++ .stop :: after)).ub = false ∧
    ((S.init.run κ (before ++ .stop :: after)).stop = .done → AtRest (S.init.run κ (before ++ .stop :: after))) := by
  have hk := known_run κ before known_init
  have hub : (S.init.run κ before).ub = false := by
    cases hu : (S.init.run κ before).ub with
    | false => rfl
    | true =>
      have := ub_gone κ before S.init (by simp [S.init]) hu
      rw [halive] at this
      simp at this
  have htr := track_run κ (.stop :: after) (known_track hk hidle)
  rw [run_append]
  generalize hs : S.init.run κ before = s at *
  have e : s.step κ .stop = { s with connected := false, stop := .closing } := by simp [S.step, S.stopOp, hidle]
  have h0 : Still κ (s.step κ .stop) := by
    rw [e]
    refine ⟨hreqs, htaken, rfl, by simp, hub, by simp [halive], fun _ _ => rfl, by simp [halive], ?_⟩
    have := known_step κ hk .stop
    rw [e] at this
    exact this
  have h1 := still_run after h0 hlate
  refine ⟨h1.ub, ?_⟩
  intro hd
  refine ⟨h1.reqs, ?_, h1.taken⟩
  intro t ht
  have hlen : ∀ (ops : List Op) {s : S}, Still κ s → (κ = .stdio → .fail true ∉ ops) → (s.run κ ops).works.length = s.works.length := by
    intro ops
    induction ops with
    | nil => intro s _ _; rfl
    | cons op ops ih =>
      intro s h hl
      have := ih (still_step h op (fun hk e => hl hk (by simp [e]))) (fun hk hm => hl hk (List.mem_cons_of_mem _ hm))
      show ((s.step κ op).run κ ops).works.length = _
      rw [this]
      rcases grown_step κ s op with e | ⟨e, _, _⟩
      · exact e
      · exfalso
        have hm : s.works.length < (s.step κ op).works.length := by omega
        cases op with
        | act i => simp only [S.step, still_act h] at e; omega
        | request j => simp only [S.step] at e; (repeat' split at e) <;> simp at e
        | take => simp only [S.step, S.takeOp] at e; (repeat' split at e) <;> simp at e
        | give => simp only [S.step, S.giveOp] at e; (repeat' split at e) <;> simp at e
        | endLoop => simp only [S.step, S.endLoopOp] at e; (repeat' split at e) <;> simp [S.failAll, touch_works] at e
        | work j => simp only [S.step, S.work] at e; (repeat' split at e) <;> simp at e
        | answer w j b => simp only [S.step, S.answerOp] at e; (repeat' split at e) <;> simp at e
        | peerDown => simp [S.step] at e
        | lost => simp only [S.step] at e; (repeat' split at e) <;> simp at e
        | stop => simp only [S.step, S.stopOp] at e; (repeat' split at e) <;> simp at e
        | fail late => simp only [S.step, S.failOp] at e; (repeat' split at e) <;> simp [S.failAll] at e
        | swap => simp only [S.step, S.swapOp] at e; (repeat' split at e) <;> simp at e
        | join => simp only [S.step, S.joinOp] at e; (repeat' split at e) <;> simp at e
        | destroy => simp only [S.step, S.destroyOp] at e; (repeat' split at e) <;> simp at e
  obtain ⟨i, hi⟩ := List.mem_iff_getElem?.1 ht
  have hlt : i < s.works.length := by
    have h1 : i < ((s.step κ .stop).run κ after).works.length := (List.getElem?_eq_some_iff.1 hi).1
    have h2 : (s.step κ .stop).works.length = s.works.length := by rw [e]
    rw [hlen after h0 hlate, h2] at h1
    exact h1
  obtain ⟨u, hu, hc⟩ := htr i hlt
  rw [hi] at hu
  cases hu
  rcases hc with hc | hc
  · exact hc
  · unfold S.held at hc; rw [hd] at hc; simp at hc

/-- The hypotheses meet: one task begun, its worker in the middle of a request to the client when `Stop` is called; the run goes to the end of `Stop` and beyond the destruction. -/
example (κ : Kind) : let before : List Op := [.request (.task (.ask fun _ => .ret)), .take, .give, .act 0, .work 0, .work 0]
    let after : List Op := [.endLoop, .fail false, .swap, .work 0, .join, .join, .destroy]
    (S.init.run κ before).stop = .idle ∧ (S.init.run κ before).gone = false ∧ (∀ t ∈ (S.init.run κ before).reqs, t = .over) ∧ (S.init.run κ before).taken = none ∧
    .fail true ∉ after ∧ (S.init.run κ (before ++ .stop :: after)).stop = .done ∧ (S.init.run κ (before ++ .stop :: after)).gone = true ∧
    (S.init.run κ before).works.length = 1 := by
  cases κ <;>
    simp [S.run, S.step, S.init, S.takeOp, S.giveOp, S.act, S.add, S.move, S.work, S.stopOp, S.endLoopOp, S.failOp, S.swapOp, S.joinOp, S.destroyOp, S.touch, S.quiet,
      Th.idle, Th.isOver, Th.failed, S.failAll, Kind.apart, Kind.waits, Kind.givesUp, Kind.refuses, Kind.knows]

/-- A call that is being served when `Stop` is called goes on when it is over, for every transport and every handler; when the server is destroyed then, the rest of the call uses what
is gone. -/
theorem C107_call_counterexample (κ : Kind) (p : Prog) :
    ∃ before after, (S.init.run κ before).stop = .idle ∧ (S.init.run κ (before ++ .stop :: after)).stop = .done ∧
      (S.init.run κ (before ++ .stop :: after)).reqs = [.run p] ∧
      (S.init.run κ (before ++ .stop :: after ++ [.destroy, .act 0])).ub = true := by
  refine ⟨[.request (.call p), .take, .give, .act 0], [.endLoop, .fail true, .swap, .join], ?_⟩
  cases κ <;> cases p <;>
    simp [S.run, S.step, S.init, S.takeOp, S.giveOp, S.act, S.add, S.move, S.work, S.stopOp, S.endLoopOp, S.failOp, S.swapOp, S.joinOp, S.destroyOp, S.touch, S.quiet,
      Th.idle, Th.isOver, Th.failed, S.failAll, Kind.apart, Kind.waits, Kind.givesUp, Kind.refuses, Kind.knows]

/-- A task can begin when `Stop` is over: its request was on its way to the handler, and nothing waits for the threads that serve requests. -/
theorem C107_task_counterexample (κ : Kind) (p : Prog) :
    ∃ before after, (S.init.run κ before).stop = .idle ∧ (S.init.run κ (before ++ .stop :: after)).stop = .done ∧
      (S.init.run κ (before ++ .stop :: after)).works = [] ∧
      (S.init.run κ (before ++ .stop :: after ++ [.act 0])).works = [.run p] := by
  refine ⟨[.request (.task p), .take, .give], [.endLoop, .fail true, .swap, .join], ?_⟩
  cases κ <;>
    simp [S.run, S.step, S.init, S.takeOp, S.giveOp, S.act, S.add, S.move, S.work, S.stopOp, S.endLoopOp, S.failOp, S.swapOp, S.joinOp, S.destroyOp, S.touch, S.quiet,
      Th.idle, Th.isOver, Th.failed, S.failAll, Kind.apart, Kind.waits, Kind.givesUp, Kind.refuses, Kind.knows]

/-- With the in-memory transport, and with the stdio transport when the time limit of `Close` strikes, it is not enough that no request is being served: the reading thread may have taken a
message, and the handler begins after the destruction. -/
theorem C107_taken_counterexample (κ : Kind) (hκ : κ ≠ .shared) (j : Job) :
    ∃ before after, (S.init.run κ before).stop = .idle ∧ (S.init.run κ before).reqs = [] ∧ (S.init.run κ (before ++ .stop :: after)).stop = .done ∧
      (S.init.run κ (before ++ .stop :: after ++ [.destroy, .give, .act 0])).ub = true := by
  refine ⟨[.request j, .take], [.fail true, .swap, .join], ?_⟩
  cases κ <;> cases j <;>
    simp [S.run, S.step, S.init, S.takeOp, S.giveOp, S.act, S.add, S.move, S.work, S.stopOp, S.endLoopOp, S.failOp, S.swapOp, S.joinOp, S.destroyOp, S.touch, S.quiet,
      Th.idle, Th.isOver, Th.failed, S.failAll, Kind.apart, Kind.waits, Kind.givesUp, Kind.refuses, Kind.knows] at hκ ⊢

/-- Destroying a server that was not stopped does not stop it: the next request is handled by what is gone. -/
theorem C107_unstopped_counterexample (κ : Kind) (j : Job) : (S.init.run κ [.destroy, .request j, .take, .give, .act 0]).ub = true := by
  cases κ <;> cases j <;>
    simp [S.run, S.step, S.init, S.takeOp, S.giveOp, S.act, S.add, S.move, S.work, S.destroyOp, S.touch, S.quiet, Th.idle, Th.isOver, Kind.apart]

end Verif
