import Verif.Life.EndProps

/-!
More of C107 and C108: what the thread that reads messages does while and after the transport is closed.
-/

namespace Verif
open Life

/-! ### The reading thread -/

/-- The reading thread takes nothing more once `Close` has waited for it. -/
structure Settled (s : S) : Prop where
  loop : s.stop = .idle ∨ s.stop = .closing ∨ s.loop = false
  taken : s.loop = false → s.taken = none

theorem settled_act {κ : Kind} {s : S} (h : Settled s) (i : Nat) : Settled (s.act κ i) := by
  have ht : ∀ r, Settled { s.touch with reqs := r } := by
    intro r
    exact ⟨by show s.touch.stop = _ ∨ s.touch.stop = _ ∨ s.touch.loop = _; rw [touch_stop, touch_loop]; exact h.loop,
      by show s.touch.loop = false → s.touch.taken = none; rw [touch_loop, touch_taken]; exact h.taken⟩
  unfold S.act
  split
  · exact h
  · split
    · exact h
    · dsimp only
      split
      · exact ht _
      · exact ⟨(ht []).loop, (ht []).taken⟩

theorem settled_step {κ : Kind} (hκ : κ ≠ .memory) {s : S} (h : Settled s) (op : Op) (hop : κ = .stdio → op ≠ .fail true) :
    Settled (s.step κ op) := by
  cases op with
  | request j => simp only [S.step]; split <;> exact ⟨h.loop, h.taken⟩
  | take =>
    simp only [S.step, S.takeOp]
    split
    · split
      · rename_i hc
        simp only [Bool.and_eq_true] at hc
        exact ⟨h.loop, fun hl => absurd hc.1.1 (by rw [show s.loop = false from hl]; simp)⟩
      · exact h
    · exact h
  | give =>
    simp only [S.step, S.giveOp]
    split
    · exact ⟨h.loop, fun _ => rfl⟩
    · exact h
  | endLoop =>
    simp only [S.step, S.endLoopOp]
    split
    · exact h
    · rename_i hn
      split
      · cases κ with
        | memory => exact absurd rfl hκ
        | shared => exact ⟨.inr (.inr rfl), fun _ => hn⟩
        | stdio => exact ⟨.inr (.inr rfl), fun _ => by show s.touch.taken = none; rw [touch_taken]; exact hn⟩
      · exact h
  | act i => exact settled_act h i
  | work i =>
    simp only [S.step, S.work]
    split
    · exact h
    · split
      · exact h
      · exact ⟨by show s.touch.stop = _ ∨ s.touch.stop = _ ∨ s.touch.loop = _; rw [touch_stop, touch_loop]; exact h.loop,
          by show s.touch.loop = false → s.touch.taken = none; rw [touch_loop, touch_taken]; exact h.taken⟩
  | answer w i b => simp only [S.step, S.answerOp]; (repeat' split) <;> exact ⟨h.loop, h.taken⟩
  | peerDown => exact ⟨h.loop, h.taken⟩
  | lost => simp only [S.step]; split <;> exact ⟨h.loop, h.taken⟩
  | stop =>
    simp only [S.step, S.stopOp]
    split
    · exact ⟨.inr (.inl rfl), h.taken⟩
    · exact h
  | fail late =>
    simp only [S.step, S.failOp]
    split
    · split
      · rename_i hc
        refine ⟨.inr (.inr ?_), h.taken⟩
        show s.loop = false
        cases κ with
        | memory => exact absurd rfl hκ
        | shared => simpa [Kind.waits, Kind.givesUp] using hc
        | stdio =>
          cases late with
          | true => exact absurd rfl (hop rfl)
          | false => simpa [Kind.waits, Kind.givesUp] using hc
      · exact h
    · exact h
  | swap =>
    simp only [S.step, S.swapOp]
    split
    · rename_i hs
      refine ⟨.inr (.inr ?_), h.taken⟩
      rcases h.loop with e | e | e
      · rw [hs] at e; simp at e
      · rw [hs] at e; simp at e
      · exact e
    · exact h
  | join =>
    have hl : ∀ l, s.stop = .joining l → s.loop = false := by
      intro l hs
      rcases h.loop with e | e | e
      · rw [hs] at e; simp at e
      · rw [hs] at e; simp at e
      · exact e
    simp only [S.step, S.joinOp]
    split
    · rename_i hs; exact ⟨.inr (.inr (hl _ hs)), h.taken⟩
    · rename_i hs
      split
      · exact ⟨.inr (.inr (hl _ hs)), h.taken⟩
      · exact h
    · exact h
  | destroy => simp only [S.step, S.destroyOp]; (repeat' split) <;> first | exact h | exact ⟨h.loop, h.taken⟩

theorem settled_run {κ : Kind} (hκ : κ ≠ .memory) (ops : List Op) : ∀ {s : S}, Settled s → (κ = .stdio → .fail true ∉ ops) →
    Settled (s.run κ ops) := by
  induction ops with
  | nil => intro s h _; exact h
  | cons op ops ih =>
    intro s h hop
    exact ih (settled_step hκ h op (fun hk e => hop hk (by rw [e]; exact List.mem_cons_self ..))) (fun hk hm => hop hk (List.mem_cons_of_mem _ hm))

/-- Without the loop no serving thread comes into being. -/
theorem over_loop_step (κ : Kind) {s : S} (hl : s.loop = false) (ht : s.taken = none) (op : Op) :
    (s.step κ op).loop = false ∧ (s.step κ op).taken = none ∧ (s.step κ op).reqs.length = s.reqs.length := by
  cases op with
  | request j => simp only [S.step]; split <;> exact ⟨hl, ht, rfl⟩
  | take => simp only [S.step, S.takeOp, hl]; (repeat' split) <;> first | exact ⟨hl, ht, rfl⟩ | (rename_i hc; simp at hc)
  | give => simp only [S.step, S.giveOp, ht]; exact ⟨hl, trivial, trivial⟩
  | endLoop => simp [S.step, S.endLoopOp, ht, hl]
  | act i =>
    simp only [S.step, S.act]
    split
    · exact ⟨hl, ht, rfl⟩
    · split
      · exact ⟨hl, ht, rfl⟩
      · split
        · exact ⟨by show s.touch.loop = _; rw [touch_loop]; exact hl, by show s.touch.taken = _; rw [touch_taken]; exact ht, List.length_set ..⟩
        · exact ⟨by show s.touch.loop = _; rw [touch_loop]; exact hl, by show s.touch.taken = _; rw [touch_taken]; exact ht, List.length_set ..⟩
  | work i =>
    simp only [S.step, S.work]
    split
    · exact ⟨hl, ht, rfl⟩
    · split
      · exact ⟨hl, ht, rfl⟩
      · exact ⟨by show s.touch.loop = _; rw [touch_loop]; exact hl, by show s.touch.taken = _; rw [touch_taken]; exact ht,
          by show s.touch.reqs.length = _; rw [touch_reqs]⟩
  | answer w i b => simp only [S.step, S.answerOp, hl]; exact ⟨hl, ht, rfl⟩
  | peerDown => exact ⟨hl, ht, rfl⟩
  | lost => simp only [S.step]; split <;> exact ⟨hl, ht, rfl⟩
  | stop => simp only [S.step, S.stopOp]; split <;> exact ⟨hl, ht, rfl⟩
  | fail late =>
    simp only [S.step, S.failOp]
    split
    · split
      · exact ⟨hl, ht, by simp [S.failAll]⟩
      · exact ⟨hl, ht, rfl⟩
    · exact ⟨hl, ht, rfl⟩
  | swap => simp only [S.step, S.swapOp]; split <;> exact ⟨hl, ht, rfl⟩
  | join => simp only [S.step, S.joinOp]; (repeat' split) <;> exact ⟨hl, ht, rfl⟩
  | destroy => simp only [S.step, S.destroyOp]; (repeat' split) <;> exact ⟨hl, ht, rfl⟩

theorem over_loop_run (κ : Kind) (ops : List Op) : ∀ {s : S}, s.loop = false → s.taken = none → (s.run κ ops).reqs.length = s.reqs.length := by
  induction ops with
  | nil => intro s _ _; rfl
  | cons op ops ih =>
    intro s hl ht
    obtain ⟨h1, h2, h3⟩ := over_loop_step κ hl ht op
    exact (ih h1 h2).trans h3

/-- With the shared memory transport, and with the stdio transport when its reading thread ends within the time limit of `Close`, no request is begun to be served
any more when `Stop` is over, whatever requests were sent before or after.

Partial: the in-memory transport, and a reading thread of the stdio transport that is left to itself, do begin one (`C107_taken_counterexample`). -/
theorem C107_reader_partial (κ : Kind) (hκ : κ ≠ .memory) (ops more : List Op) (hlate : κ = .stdio → .fail true ∉ ops)
    (hdone : (S.init.run κ ops).stop = .done) :
    (S.init.run κ (ops ++ more)).reqs.length = (S.init.run κ ops).reqs.length := by
  have h := settled_run hκ ops (s := S.init) ⟨.inl rfl, by simp [S.init]⟩ hlate
  have hl : (S.init.run κ ops).loop = false := by
    rcases h.loop with e | e | e
    · rw [hdone] at e; simp at e
    · rw [hdone] at e; simp at e
    · exact e
  rw [run_append]
  exact over_loop_run κ more hl (h.taken hl)

/-- A request that was in the queue as `Stop` was called is not served. -/
example (κ : Kind) (hκ : κ ≠ .memory) : let ops : List Op := [.request (.call .ret), .stop, .endLoop, .fail false, .swap, .join]
    .fail true ∉ ops ∧ (S.init.run κ ops).stop = .done ∧ (S.init.run κ ops).queue = [.call .ret] ∧
    (S.init.run κ (ops ++ [.take, .give, .request (.call .ret), .take, .give])).reqs = [] := by
  cases κ <;>
    simp [S.run, S.step, S.init, S.takeOp, S.giveOp, S.stopOp, S.endLoopOp, S.failOp, S.swapOp, S.joinOp, S.touch, S.quiet,
      S.failAll, Kind.apart, Kind.waits, Kind.givesUp] at hκ ⊢

/-! ### One request after the other -/

/-- At most one serving thread is under way, and none while a message is on its way to the handler. -/
structure Single (s : S) : Prop where
  one : ∀ (i j : Nat) (t u : Th), s.reqs[i]? = some t → s.reqs[j]? = some u → t ≠ .over → u ≠ .over → i = j
  taken : s.taken ≠ none → ∀ t ∈ s.reqs, t = Th.over

/-- A step that begins no thread and takes no message. -/
theorem single_same {s s' : S} (h : Single s) (ht : s'.taken = s.taken ∨ s'.taken = none) (hl : s'.reqs.length = s.reqs.length)
    (ho : ∀ i : Nat, s.reqs[i]? = some .over → s'.reqs[i]? = some .over) : Single s' := by
  have back : ∀ (i : Nat) (t : Th), s'.reqs[i]? = some t → t ≠ .over → ∃ u, s.reqs[i]? = some u ∧ u ≠ .over := by
    intro i t hi hn
    have hlt : i < s.reqs.length := by
      rw [← hl]
      exact (List.getElem?_eq_some_iff.1 hi).1
    refine ⟨s.reqs[i], List.getElem?_eq_getElem hlt, fun e => hn ?_⟩
    have := ho i (by rw [List.getElem?_eq_getElem hlt, e])
    rw [hi] at this
    exact Option.some.inj this
  refine ⟨fun i j t u h1 h2 h3 h4 => ?_, fun hn t hm => ?_⟩
  · obtain ⟨t', h5, h6⟩ := back i t h1 h3
    obtain ⟨u', h7, h8⟩ := back j u h2 h4
    exact h.one i j t' u' h5 h7 h6 h8
  · rcases ht with ht | ht
    · obtain ⟨i, hi⟩ := List.mem_iff_getElem?.1 hm
      cases t with
      | over => rfl
      | _ =>
        obtain ⟨u, h5, h6⟩ := back i _ hi (by simp)
        exact absurd (h.taken (by rw [← ht]; exact hn) u (List.mem_iff_getElem?.2 ⟨i, h5⟩)) h6
    · exact absurd ht hn

theorem over_failed : Th.failed .over = .over := rfl
theorem over_answered (b : Bool) : Th.answered b .over = .over := rfl

theorem single_step {s : S} (h : Single s) (op : Op) : Single (s.step .stdio op) := by
  have same : ∀ s' : S, s'.taken = s.taken → s'.reqs = s.reqs → Single s' := fun s' h1 h2 =>
    single_same h (.inl h1) (by rw [h2]) (fun i hi => by rw [h2]; exact hi)
  have failed : ∀ s' : S, s'.taken = s.taken → s'.reqs = s.reqs.map Th.failed → Single s' := fun s' h1 h2 =>
    single_same h (.inl h1) (by rw [h2, List.length_map]) (fun i hi => by rw [h2, List.getElem?_map, hi]; rfl)
  cases op with
  | request j => simp only [S.step]; split <;> exact same _ rfl rfl
  | take =>
    simp only [S.step, S.takeOp]
    split
    · split
      · rename_i hc
        simp only [Bool.and_eq_true, Kind.apart, Bool.false_or, S.quiet, List.all_eq_true] at hc
        refine ⟨h.one, fun _ t hm => ?_⟩
        have := hc.2 t hm
        cases t <;> simp [Th.isOver] at this ⊢
      · exact h
    · exact h
  | give =>
    simp only [S.step, S.giveOp]
    split
    · rename_i j hj
      have ho := h.taken (by rw [hj]; simp)
      refine ⟨fun a b t u h1 h2 h3 h4 => ?_, fun hn => absurd rfl hn⟩
      have pos : ∀ (i : Nat) (t : Th), (s.reqs ++ [Th.start j])[i]? = some t → t ≠ .over → i = s.reqs.length := by
        intro i t hi hn
        rcases Nat.lt_trichotomy i s.reqs.length with hlt | he | hgt
        · rw [List.getElem?_append_left hlt] at hi
          exact absurd (ho t (List.mem_iff_getElem?.2 ⟨i, hi⟩)) hn
        · exact he
        · rw [List.getElem?_eq_none (by simp; omega)] at hi
          cases hi
      rw [pos a t h1 h3, pos b u h2 h4]
    · exact h
  | endLoop =>
    simp only [S.step, S.endLoopOp]
    split
    · exact h
    · split
      · exact same _ (touch_taken s) (touch_reqs s)
      · exact h
  | act i =>
    have step : ∀ (t : Th) (s' : S), s.reqs[i]? = some t → t.idle = false → s'.taken = s.taken → s'.reqs = s.reqs.set i (s.move .stdio t).1 → Single s' := by
      intro t s' ht hid h1 h2
      refine single_same h (.inl h1) (by rw [h2, List.length_set]) (fun j hj => ?_)
      rw [h2]
      by_cases e : i = j
      · subst e
        rw [ht] at hj
        cases hj
        simp [Th.idle] at hid
      · rw [List.getElem?_set_ne e]
        exact hj
    simp only [S.step, S.act]
    split
    · exact h
    · rename_i t ht
      split
      · exact h
      · rename_i hid
        split
        · exact step t _ ht (by simpa using hid) (touch_taken s) rfl
        · exact step t _ ht (by simpa using hid) (touch_taken s) rfl
  | work i =>
    simp only [S.step, S.work]
    split
    · exact h
    · split
      · exact h
      · exact same _ (touch_taken s) (touch_reqs s)
  | answer w i b =>
    simp only [S.step, S.answerOp]
    split
    · split
      · exact same _ rfl rfl
      · refine single_same h (.inl rfl) (by simp) (fun j hj => ?_)
        show (s.reqs.modify i (Th.answered b))[j]? = _
        rw [List.getElem?_modify, hj]
        split <;> rfl
    · exact h
  | peerDown => exact same _ rfl rfl
  | lost => simp only [S.step]; split <;> exact same _ rfl rfl
  | stop => simp only [S.step, S.stopOp]; split <;> exact same _ rfl rfl
  | fail late =>
    simp only [S.step, S.failOp]
    split
    · split
      · exact failed _ rfl rfl
      · exact h
    · exact h
  | swap => simp only [S.step, S.swapOp]; split <;> exact same _ rfl rfl
  | join => simp only [S.step, S.joinOp]; (repeat' split) <;> exact same _ rfl rfl
  | destroy => simp only [S.step, S.destroyOp]; (repeat' split) <;> exact same _ rfl rfl

theorem single_run (ops : List Op) : ∀ {s : S}, Single s → Single (s.run .stdio ops) := by
  induction ops with
  | nil => intro s h; exact h
  | cons op ops ih => intro s h; exact ih (single_step h op)

/-- With the stdio transport requests are served one after the other: at any time at most one handler is under way (workers of tasks apart). -/
theorem C107_serial (ops : List Op) (i j : Nat) (t u : Th) (hi : (S.init.run .stdio ops).reqs[i]? = some t) (hj : (S.init.run .stdio ops).reqs[j]? = some u)
    (ht : t ≠ .over) (hu : u ≠ .over) : i = j :=
  (single_run ops (s := S.init) ⟨fun i j t u h => by simp [S.init] at h, fun h => absurd rfl h⟩).one i j t u hi hj ht hu

/-- Two requests: the second is taken when the first has been served. With the other transports both are under way together. -/
example : let ops : List Op := [.request (.call .ret), .request (.call .ret), .take, .give, .take, .give]
    (S.init.run .stdio ops).reqs = [.start (.call .ret)] ∧ (S.init.run .memory ops).reqs = [.start (.call .ret), .start (.call .ret)] ∧
    (S.init.run .shared ops).reqs = [.start (.call .ret), .start (.call .ret)] ∧
    (S.init.run .stdio (ops ++ [.act 0, .act 0, .take, .give])).reqs = [.over, .start (.call .ret)] := by
  simp [S.run, S.step, S.init, S.takeOp, S.giveOp, S.act, S.move, S.touch, S.quiet, Th.idle, Th.isOver, Kind.apart]

/-! ### Requests of a closed side -/

/-- A request that a handler sends to the other side when its own side is closed fails at once, with shared memory and with stdio: the handler goes on with the error at its next
step, in every state.

Partial: the in-memory transport lets it through (`C108_ask_counterexample`). -/
theorem C108_refused_partial (κ : Kind) (hκ : κ ≠ .memory) (s : S) (hc : s.connected = false) (i : Nat) (k : Bool → Prog) :
    (s.works[i]? = some (.run (.ask k)) → (s.step κ (.work i)).works[i]? = some (.run (k false))) ∧
    (s.reqs[i]? = some (.run (.ask k)) → (s.step κ (.act i)).reqs[i]? = some (.run (k false))) := by
  constructor <;> intro h
  · obtain ⟨hlt, -⟩ := List.getElem?_eq_some_iff.1 h
    cases κ with
    | memory => exact absurd rfl hκ
    | shared =>
      simp only [S.step, S.work, h]
      simp [Th.idle, S.move, Kind.refuses, hc, hlt]
    | stdio =>
      simp only [S.step, S.work, h]
      simp [Th.idle, S.move, Kind.refuses, hc, hlt]
  · obtain ⟨hlt, -⟩ := List.getElem?_eq_some_iff.1 h
    cases κ with
    | memory => exact absurd rfl hκ
    | shared =>
      simp only [S.step, S.act, h]
      simp [Th.idle, S.move, Kind.refuses, hc, hlt]
    | stdio =>
      simp only [S.step, S.act, h]
      simp [Th.idle, S.move, Kind.refuses, hc, hlt]

example (κ : Kind) (hκ : κ ≠ .memory) (k : Bool → Prog) : let s := S.init.run κ [.request (.task (.ask k)), .take, .give, .act 0, .stop]
    s.connected = false ∧ s.works[0]? = some (.run (.ask k)) := by
  cases κ <;>
    simp [S.run, S.step, S.init, S.takeOp, S.giveOp, S.act, S.add, S.move, S.stopOp, S.touch, S.quiet, Th.idle, Th.isOver, Kind.apart] at hκ ⊢

end Verif
