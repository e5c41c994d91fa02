import Verif.SharedMemory.Model
import Verif.SharedMemory.Words
import Verif.InMemory.Props

/-! Helper lemmas: invariants of a pair of shared-memory endpoints. -/

set_option linter.unusedSectionVars false

namespace Verif.Shm

open Verif.Stdio (idText)
open InMemory (PlainReq PlainNote PlainOut replyFor_classified replyFor_id mem_of_eraseIdx perm_eraseIdx)

variable {D : Type} [DblFmt D]

@[simp] theorem get_upd_same (s : Net D) (x : Bool) (f : Endpoint D → Endpoint D) : (s.upd x f).get x = f (s.get x) := by
  cases x <;> rfl

@[simp] theorem get_upd_not (s : Net D) (x : Bool) (f : Endpoint D → Endpoint D) : (s.upd x f).get (!x) = s.get (!x) := by
  cases x <;> rfl

@[simp] theorem get_upd_not' (s : Net D) (x : Bool) (f : Endpoint D → Endpoint D) : (s.upd (!x) f).get x = s.get x := by
  cases x <;> rfl

theorem get_upd (s : Net D) (x y : Bool) (f : Endpoint D → Endpoint D) :
    (s.upd x f).get y = if y = x then f (s.get y) else s.get y := by
  cases x <;> cases y <;> rfl

theorem get_push (s : Net D) (x y : Bool) (t : Bytes) :
    (s.push x t).get y = if y = x then { s.get y with log := (s.get y).log ++ [t] }
      else { s.get y with queue := (s.get y).queue ++ [t] } := by
  cases x <;> cases y <;> rfl

theorem get_removed (s : Net D) (r y : Bool) : ({ s with removed := r } : Net D).get y = s.get y := by cases y <;> rfl

/-- `Start` changes three flags of one side at most. -/
theorem get_start (s : Net D) (x y : Bool) : (s.start x).get y = s.get y ∨
    (s.start x).get y = { s.get y with connected := true, loop := true, opened := true } := by
  cases x <;> (simp only [Net.start]; split <;> cases y <;> simp [Net.get])

theorem get_closeEnd (s : Net D) (x y : Bool) : (s.closeEnd x).get y = s.get y ∨
    (s.closeEnd x).get y = { s.get y with tab := (s.get y).tab.closeAll .closed } := by
  unfold Net.closeEnd
  split
  · exact .inl rfl
  · rw [get_removed, get_upd]; split
    · exact .inr rfl
    · exact .inl rfl

/-! ### The promise tables -/

/-- Which outcomes fit a request filed under a key. -/
def Fits : Outcome D → Bytes → Prop
  | .response r, k => idText r.id = k
  | .tooLarge id, k => idText id = k
  | .sendFailed id, k => idText id = k
  | .peerGone id, k => id = k
  | .closed id, k => id = k
  | _, _ => False

def Loose : Outcome D → Prop
  | .broken => True
  | .refused _ => True
  | _ => False

def TabInv (s : Net D) : Prop :=
  ∀ y, (s.get y).tab.Inv Fits Loose ∧ ∀ p ∈ (s.get y).sending, p.1 = idText p.2.id

theorem tabInv_init (ha hb : Bool) : TabInv (Net.init ha hb : Net D) := by
  intro y; cases y <;> exact ⟨PTab.inv_init, by intro p hp; cases hp⟩

theorem tab_apply {e : Endpoint D} (h : e.tab.Inv Fits Loose) (ev : Event D) :
    (e.apply ev).tab.Inv Fits Loose ∧ (e.apply ev).sending = e.sending := by
  unfold Endpoint.apply
  split
  · exact ⟨PTab.inv_complete h _ (.inr rfl), rfl⟩
  · exact ⟨h, rfl⟩
  · exact ⟨PTab.inv_closeAll h (fun k => .inr rfl), rfl⟩
  · exact ⟨h, rfl⟩

theorem tab_handle {e : Endpoint D} (h : e.tab.Inv Fits Loose) :
    e.handle.tab.Inv Fits Loose ∧ e.handle.sending = e.sending := by
  unfold Endpoint.handle
  split
  · exact ⟨h, rfl⟩
  · exact tab_apply h _

theorem take_frame (c : Cfg) (x : Bool) (e : Endpoint D) : (e.take c x).log = e.log ∧ (e.take c x).asked = e.asked ∧
    (e.take c x).answered = e.answered ∧ (e.take c x).jobs = e.jobs ∧ (e.take c x).events = e.events ∧
    (e.take c x).hasHandler = e.hasHandler ∧ (e.take c x).tab = e.tab ∧ (e.take c x).sending = e.sending ∧
    (e.take c x).tickets = e.tickets := by
  unfold Endpoint.take
  split
  · split
    · simp
    · split <;> simp
  · simp

theorem apply_frame (e : Endpoint D) (ev : Event D) :
    (e.apply ev).log = e.log ∧ (e.apply ev).queue = e.queue ∧ (e.apply ev).hasHandler = e.hasHandler ∧
    (e.apply ev).events = e.events ++ [ev] ∧ (e.apply ev).asked = e.asked ∧ (e.apply ev).answered = e.answered ∧
    (e.apply ev).sending = e.sending ∧ (e.apply ev).tickets = e.tickets ∧ (e.apply ev).counter = e.counter ∧
    (e.apply ev).loop = e.loop ∧ (e.apply ev).opened = e.opened := by
  unfold Endpoint.apply
  split <;> exact ⟨rfl, rfl, rfl, rfl, rfl, rfl, rfl, rfl, rfl, rfl, rfl⟩

theorem handle_frame (e : Endpoint D) : e.handle.log = e.log ∧ e.handle.asked = e.asked ∧ e.handle.answered = e.answered ∧
    e.handle.sending = e.sending ∧ e.handle.hasHandler = e.hasHandler ∧ e.handle.queue = e.queue ∧ e.handle.tickets = e.tickets := by
  unfold Endpoint.handle
  split
  · simp
  · obtain ⟨h1, h2, h3, h4, h5, h6, h7, h8, h9⟩ := apply_frame e (eventOf e.hasHandler ‹_›)
    exact ⟨h1, h5, h6, h7, h3, h2, h8⟩

theorem tabInv_upd {s : Net D} (h : TabInv s) (x : Bool) {f : Endpoint D → Endpoint D}
    (hf : ∀ e : Endpoint D, (e.tab.Inv Fits Loose ∧ ∀ p ∈ e.sending, p.1 = idText p.2.id) →
      ((f e).tab.Inv Fits Loose ∧ ∀ p ∈ (f e).sending, p.1 = idText p.2.id)) : TabInv (s.upd x f) := by
  intro y; rw [get_upd]; split
  · exact hf _ (h y)
  · exact h y

theorem tabInv_push {s : Net D} (h : TabInv s) (x : Bool) (t : Bytes) : TabInv (s.push x t) := by
  intro y
  rw [get_push]
  split <;> exact h y

theorem tabInv_put {s : Net D} (h : TabInv s) (c : Cfg) (x : Bool) (t : Bytes) : TabInv (s.put c x t) := by
  unfold Net.put; split
  · exact tabInv_push h x t
  · exact h

theorem tabInv_step {s : Net D} (h : TabInv s) (c : Cfg) (op : Op D) : TabInv (s.step c op) := by
  cases op with
  | start x =>
    intro y
    rcases get_start s x y with e | e <;> (show _ ∧ _; rw [Net.step, e]; exact h y)
  | send x r =>
    refine tabInv_upd h x (fun e he => ?_)
    unfold Endpoint.send
    split
    · exact he
    · exact ⟨PTab.inv_immediate he.1 trivial, he.2⟩
  | file x i =>
    refine tabInv_upd h x (fun e he => ?_)
    unfold Endpoint.file
    split
    · exact he
    · refine ⟨PTab.inv_insert he.1 _ trivial, ?_⟩
      intro p hp
      rcases List.mem_append.1 hp with h1 | h1
      · exact he.2 p h1
      · simp at h1; rw [h1]
  | deliver x i =>
    show TabInv (s.deliver c x i)
    unfold Net.deliver
    split
    · exact h
    · rename_i key r hg
      have hmem := List.mem_of_getElem? hg
      have hk : key = idText r.id := (h x).2 _ hmem
      have h' : TabInv (s.upd x (fun e => { e with sending := e.sending.eraseIdx i })) :=
        tabInv_upd h x (fun e he => ⟨he.1, fun p hp => he.2 p (mem_of_eraseIdx hp)⟩)
      simp only
      split
      · exact tabInv_push h' _ _
      · refine tabInv_upd h' x (fun e he => ⟨PTab.inv_complete he.1 _ (.inr ?_), he.2⟩)
        split <;> exact hk.symm
  | notify x n => exact tabInv_put h c _ _
  | take x =>
    refine tabInv_upd h x (fun e he => ?_)
    obtain ⟨_, _, _, _, _, _, h7, h8, _⟩ := take_frame c x e
    rw [h7, h8]; exact he
  | handle x =>
    refine tabInv_upd h x (fun e he => ?_)
    rw [(tab_handle he.1).2]; exact ⟨(tab_handle he.1).1, he.2⟩
  | reply x i out =>
    show TabInv (s.reply c x i out)
    unfold Net.reply
    split
    · exact h
    · have h' : ∀ req ok, TabInv (s.upd x (fun e => { e with jobs := e.jobs.eraseIdx i, answered := e.answered ++ [(req, out, ok)] })) :=
        fun req ok => tabInv_upd h x (fun e he => he)
      simp only
      split
      · exact tabInv_push (h' _ _) _ _
      · exact h' _ _
  | loopEnd x =>
    refine tabInv_upd h x (fun e he => ?_)
    unfold Endpoint.loopEnd
    split
    · exact ⟨PTab.inv_closeAll he.1 (fun k => .inr rfl), he.2⟩
    · exact he
  | closeTell => exact tabInv_put h c _ _
  | closeFlag x => exact tabInv_upd h x (fun e he => he)
  | closeEnd x =>
    intro y
    show ((s.closeEnd x).get y).tab.Inv Fits Loose ∧ ∀ p ∈ ((s.closeEnd x).get y).sending, p.1 = idText p.2.id
    rcases get_closeEnd s x y with e | e <;> rw [e]
    · exact h y
    · exact ⟨PTab.inv_closeAll (h y).1 (fun k => .inr rfl), (h y).2⟩
  | tick x => exact tabInv_upd h x (fun e he => he)

theorem tabInv_run {s : Net D} (h : TabInv s) (c : Cfg) (ops : List (Op D)) : TabInv (s.run c ops) := by
  induction ops generalizing s with
  | nil => exact h
  | cons op ops ih => exact ih (tabInv_step h c op)

/-! ### First in, first out -/

/-- What `y` has done is the first part of what its peer sent, in order. -/
def Fifo (s : Net D) : Prop :=
  ∀ y, ∃ pre, (s.get (!y)).log = pre ++ (s.get y).current.toList ++ (s.get y).queue ∧
    (s.get y).events = pre.map (eventOf (s.get y).hasHandler)

theorem fifo_init (ha hb : Bool) : Fifo (Net.init ha hb : Net D) := by
  intro y; exact ⟨[], by cases y <;> exact ⟨rfl, rfl⟩⟩

/-- What the invariant reads of an endpoint. -/
def Endpoint.face (e : Endpoint D) : List Bytes × List Bytes × Option Bytes × List (Event D) × Bool :=
  (e.log, e.queue, e.current, e.events, e.hasHandler)

theorem fifo_same {s s' : Net D} (h : Fifo s) (he : ∀ y, (s'.get y).face = (s.get y).face) : Fifo s' := by
  intro y
  obtain ⟨pre, h1, h2⟩ := h y
  have e1 := he y
  have e2 := he (!y)
  simp only [Endpoint.face, Prod.mk.injEq] at e1 e2
  refine ⟨pre, ?_, ?_⟩
  · rw [e2.1, e1.2.1, e1.2.2.1]; exact h1
  · rw [e1.2.2.2.1, e1.2.2.2.2]; exact h2

/-- Steps that leave log, queue, current and events alone. -/
theorem fifo_upd {s : Net D} (h : Fifo s) (x : Bool) {f : Endpoint D → Endpoint D} (hf : ∀ e, (f e).face = e.face) : Fifo (s.upd x f) := by
  refine fifo_same h (fun y => ?_)
  rw [get_upd]; split
  · exact hf _
  · rfl

theorem fifo_push {s : Net D} (h : Fifo s) (x : Bool) (t : Bytes) : Fifo (s.push x t) := by
  intro y
  obtain ⟨pre, h1, h2⟩ := h y
  refine ⟨pre, ?_⟩
  cases x <;> cases y <;> simp only [Net.push, Net.upd, Net.get, Bool.not_true, Bool.not_false] at * <;>
    refine ⟨?_, h2⟩ <;> rw [h1] <;> simp

theorem fifo_put {s : Net D} (h : Fifo s) (c : Cfg) (x : Bool) (t : Bytes) : Fifo (s.put c x t) := by
  unfold Net.put; split
  · exact fifo_push h x t
  · exact h

theorem fifo_own {s : Net D} (h : Fifo s) (x : Bool) {f : Endpoint D → Endpoint D}
    (hl : ∀ e, (f e).log = e.log)
    (hf : ∀ e pre L, L = pre ++ e.current.toList ++ e.queue → e.events = pre.map (eventOf e.hasHandler) →
      ∃ pre', L = pre' ++ (f e).current.toList ++ (f e).queue ∧ (f e).events = pre'.map (eventOf (f e).hasHandler)) :
    Fifo (s.upd x f) := by
  intro y
  obtain ⟨pre, h1, h2⟩ := h y
  by_cases hy : y = x
  · subst hy
    rw [get_upd_same, get_upd_not]
    exact hf _ pre _ h1 h2
  · have : x = !y := by cases x <;> cases y <;> simp_all
    subst this
    rw [get_upd_same, get_upd_not', hl]
    exact ⟨pre, h1, h2⟩

theorem fifo_step {s : Net D} (h : Fifo s) (c : Cfg) (op : Op D) : Fifo (s.step c op) := by
  cases op with
  | start x =>
    refine fifo_same h (fun y => ?_)
    rcases get_start s x y with e | e <;> exact (congrArg Endpoint.face e :)
  | send x r =>
    refine fifo_upd h x (fun e => ?_)
    unfold Endpoint.send
    split <;> rfl
  | file x i =>
    refine fifo_upd h x (fun e => ?_)
    unfold Endpoint.file
    split <;> rfl
  | deliver x i =>
    show Fifo (s.deliver c x i)
    unfold Net.deliver
    split
    · exact h
    · have h' : Fifo (s.upd x (fun e => { e with sending := e.sending.eraseIdx i })) := fifo_upd h x (fun e => rfl)
      simp only
      split
      · exact fifo_push h' _ _
      · exact fifo_upd h' x (fun e => rfl)
  | notify x n => exact fifo_put h c _ _
  | take x =>
    refine fifo_own h x (fun e => (take_frame c x e).1) ?_
    intro e pre L hL he
    refine ⟨pre, ?_, by rw [(take_frame c x e).2.2.2.2.1, (take_frame c x e).2.2.2.2.2.1]; exact he⟩
    rw [hL]
    unfold Endpoint.take
    split
    · rename_i hc
      simp only [Bool.and_eq_true, Option.isNone_iff_eq_none] at hc
      split
      · rfl
      · split
        · rfl
        · rename_i t q hq
          rw [hc.2, hq]; simp
    · rfl
  | handle x =>
    refine fifo_own h x (fun e => (handle_frame e).1) ?_
    intro e pre L hL he
    unfold Endpoint.handle
    split
    · exact ⟨pre, hL, he⟩
    · rename_i t hc
      obtain ⟨h1, h2, h3, h4, _⟩ := apply_frame e (eventOf e.hasHandler t)
      refine ⟨pre ++ [t], ?_, ?_⟩
      · simp only [Option.toList_none]; rw [h2, hL, hc]; simp
      · simp only; rw [h4, h3, he]; simp
  | reply x i out =>
    show Fifo (s.reply c x i out)
    unfold Net.reply
    split
    · exact h
    · have h' : ∀ req ok, Fifo (s.upd x (fun e => { e with jobs := e.jobs.eraseIdx i, answered := e.answered ++ [(req, out, ok)] })) :=
        fun req ok => fifo_upd h x (fun e => rfl)
      simp only
      split
      · exact fifo_push (h' _ _) _ _
      · exact h' _ _
  | loopEnd x =>
    refine fifo_upd h x (fun e => ?_)
    unfold Endpoint.loopEnd
    split <;> rfl
  | closeTell => exact fifo_put h c _ _
  | closeFlag x => exact fifo_upd h x (fun e => rfl)
  | closeEnd x =>
    refine fifo_same h (fun y => ?_)
    rcases get_closeEnd s x y with e | e <;> exact (congrArg Endpoint.face e :)
  | tick x => exact fifo_upd h x (fun e => rfl)

theorem fifo_run {s : Net D} (h : Fifo s) (c : Cfg) (ops : List (Op D)) : Fifo (s.run c ops) := by
  induction ops generalizing s with
  | nil => exact h
  | cons op ops ih => exact ih (fifo_step h c op)

/-! ### Each handled request is answered at most once -/

/-- The request an event hands to the request handler. -/
def Event.req? : Event D → Option (Request D)
  | .request r => some r
  | _ => none

def JobsInv (s : Net D) : Prop :=
  ∀ y, ((s.get y).events.filterMap Event.req?).Perm ((s.get y).jobs ++ (s.get y).answered.map (·.1))

theorem jobsInv_init (ha hb : Bool) : JobsInv (Net.init ha hb : Net D) := by
  intro y; cases y <;> exact List.Perm.refl _

/-- What the invariant reads of an endpoint. -/
def Endpoint.work (e : Endpoint D) : List (Event D) × List (Request D) × List (Request D × HandlerOutcome D × Bool) :=
  (e.events, e.jobs, e.answered)

theorem jobsInv_same {s s' : Net D} (h : JobsInv s) (he : ∀ y, (s'.get y).work = (s.get y).work) : JobsInv s' := by
  intro y
  have e1 := he y
  simp only [Endpoint.work, Prod.mk.injEq] at e1
  rw [e1.1, e1.2.1, e1.2.2]; exact h y

theorem jobsInv_upd {s : Net D} (h : JobsInv s) (x : Bool) {f : Endpoint D → Endpoint D}
    (hf : ∀ e : Endpoint D, (e.events.filterMap Event.req?).Perm (e.jobs ++ e.answered.map (·.1)) →
      ((f e).events.filterMap Event.req?).Perm ((f e).jobs ++ (f e).answered.map (·.1))) : JobsInv (s.upd x f) := by
  intro y; rw [get_upd]; split
  · exact hf _ (h y)
  · exact h y

theorem jobsInv_keep {s : Net D} (h : JobsInv s) (x : Bool) {f : Endpoint D → Endpoint D} (hf : ∀ e, (f e).work = e.work) : JobsInv (s.upd x f) :=
  jobsInv_same h (fun y => by rw [get_upd]; split <;> first | exact hf _ | rfl)

theorem jobsInv_push {s : Net D} (h : JobsInv s) (x : Bool) (t : Bytes) : JobsInv (s.push x t) := by
  intro y; rw [get_push]; split <;> exact h y

theorem jobsInv_put {s : Net D} (h : JobsInv s) (c : Cfg) (x : Bool) (t : Bytes) : JobsInv (s.put c x t) := by
  unfold Net.put; split
  · exact jobsInv_push h x t
  · exact h

theorem jobsInv_step {s : Net D} (h : JobsInv s) (c : Cfg) (op : Op D) : JobsInv (s.step c op) := by
  cases op with
  | start x =>
    refine jobsInv_same h (fun y => ?_)
    rcases get_start s x y with e | e <;> exact (congrArg Endpoint.work e :)
  | send x r =>
    refine jobsInv_keep h x (fun e => ?_)
    unfold Endpoint.send
    split <;> rfl
  | file x i =>
    refine jobsInv_keep h x (fun e => ?_)
    unfold Endpoint.file
    split <;> rfl
  | deliver x i =>
    show JobsInv (s.deliver c x i)
    unfold Net.deliver
    split
    · exact h
    · have h' : JobsInv (s.upd x (fun e => { e with sending := e.sending.eraseIdx i })) := jobsInv_keep h x (fun e => rfl)
      simp only
      split
      · exact jobsInv_push h' _ _
      · exact jobsInv_keep h' x (fun e => rfl)
  | notify x n => exact jobsInv_put h c _ _
  | take x =>
    refine jobsInv_upd h x (fun e he => ?_)
    obtain ⟨_, _, h3, h4, h5, _⟩ := take_frame c x e
    rw [h3, h4, h5]; exact he
  | handle x =>
    refine jobsInv_upd h x (fun e he => ?_)
    unfold Endpoint.handle
    split
    · exact he
    · rename_i t hc
      simp only
      generalize eventOf (D := D) e.hasHandler t = ev
      unfold Endpoint.apply
      cases ev with
      | resolve r => simpa [Event.req?, List.filterMap_cons] using he
      | request r =>
        simp only [List.filterMap_append, List.filterMap_cons, Event.req?, List.filterMap_nil]
        refine (he.append_right _).trans ?_
        rw [List.append_assoc, List.append_assoc]
        exact List.Perm.append_left _ List.perm_append_comm
      | notification n => simpa [Event.req?, List.filterMap_cons] using he
      | disconnected => simpa [Event.req?, List.filterMap_cons] using he
      | dropped => simpa [Event.req?, List.filterMap_cons] using he
  | reply x i out =>
    show JobsInv (s.reply c x i out)
    unfold Net.reply
    split
    · exact h
    · rename_i req hg
      have h' : ∀ ok, JobsInv (s.upd x (fun e => { e with jobs := e.jobs.eraseIdx i, answered := e.answered ++ [(req, out, ok)] })) := by
        intro ok y; rw [get_upd]; split
        · rename_i hy; subst hy
          refine (h y).trans ?_
          simp only [List.map_append, List.map_cons, List.map_nil]
          refine ((perm_eraseIdx hg).symm.append_right _).trans ?_
          rw [← List.append_assoc, List.cons_append]
          exact (List.perm_append_singleton _ _).symm
        · exact h y
      simp only
      split
      · exact jobsInv_push (h' _) _ _
      · exact h' _
  | loopEnd x =>
    refine jobsInv_keep h x (fun e => ?_)
    unfold Endpoint.loopEnd
    split <;> rfl
  | closeTell => exact jobsInv_put h c _ _
  | closeFlag x => exact jobsInv_keep h x (fun e => rfl)
  | closeEnd x =>
    refine jobsInv_same h (fun y => ?_)
    rcases get_closeEnd s x y with e | e <;> exact (congrArg Endpoint.work e :)
  | tick x => exact jobsInv_keep h x (fun e => rfl)

theorem jobsInv_run {s : Net D} (h : JobsInv s) (c : Cfg) (ops : List (Op D)) : JobsInv (s.run c ops) := by
  induction ops generalizing s with
  | nil => exact h
  | cons op ops ih => exact ih (jobsInv_step h c op)

/-! ### The queues keep their bounds -/

def Bounded (c : Cfg) (s : Net D) : Prop :=
  ∀ y, (s.get y).queue.length ≤ c.count ∧ ∀ t ∈ (s.get y).queue, t.length ≤ c.sizeA ∧ t.length ≤ c.size (!y)

theorem bounded_init (c : Cfg) (ha hb : Bool) : Bounded c (Net.init ha hb : Net D) := by
  intro y; cases y <;> exact ⟨Nat.zero_le _, by intro t ht; cases ht⟩

theorem bounded_sub {c : Cfg} {s s' : Net D} (h : Bounded c s) (he : ∀ y, (s'.get y).queue.Sublist (s.get y).queue) : Bounded c s' :=
  fun y => ⟨Nat.le_trans (he y).length_le (h y).1, fun t ht => (h y).2 t ((he y).subset ht)⟩

theorem bounded_upd {c : Cfg} {s : Net D} (h : Bounded c s) (x : Bool) {f : Endpoint D → Endpoint D}
    (hf : ∀ e, (f e).queue.Sublist e.queue) : Bounded c (s.upd x f) :=
  bounded_sub h (fun y => by rw [get_upd]; split <;> first | exact hf _ | exact List.Sublist.refl _)

theorem bounded_push {c : Cfg} {s s' : Net D} (h : Bounded c s) (x : Bool) (t : Bytes) (hf : s'.fits c x t = true)
    (hs : ∀ y, (s'.get y).queue = (s.get y).queue) : Bounded c (s.push x t) := by
  simp only [Net.fits, Bool.and_eq_true, decide_eq_true_eq] at hf
  rw [hs] at hf
  intro y
  rw [get_push]
  split
  · exact h y
  · rename_i hy
    have hx : x = !y := by cases x <;> cases y <;> simp_all
    subst hx
    rw [Bool.not_not] at hf
    refine ⟨by simp; omega, ?_⟩
    intro u hu
    rcases List.mem_append.1 hu with h1 | h1
    · exact (h y).2 u h1
    · simp at h1; subst h1; exact ⟨hf.1.2, hf.1.1.2⟩

theorem bounded_put {c : Cfg} {s : Net D} (h : Bounded c s) (x : Bool) (t : Bytes) : Bounded c (s.put c x t) := by
  unfold Net.put; split
  · rename_i hf; exact bounded_push h x t hf (fun _ => rfl)
  · exact h

theorem bounded_step {c : Cfg} {s : Net D} (h : Bounded c s) (op : Op D) : Bounded c (s.step c op) := by
  cases op with
  | start x =>
    refine bounded_sub h (fun y => ?_)
    show ((s.start x).get y).queue.Sublist _
    rcases get_start s x y with e | e <;> (rw [e]; exact List.Sublist.refl _)
  | send x r => exact bounded_upd h x (fun e => by unfold Endpoint.send; split <;> exact List.Sublist.refl _)
  | file x i => exact bounded_upd h x (fun e => by unfold Endpoint.file; split <;> exact List.Sublist.refl _)
  | deliver x i =>
    show Bounded c (s.deliver c x i)
    unfold Net.deliver
    split
    · exact h
    · have h' : Bounded c (s.upd x (fun e => { e with sending := e.sending.eraseIdx i })) := bounded_upd h x (fun e => List.Sublist.refl _)
      simp only
      split
      · rename_i hf
        exact bounded_push h' x _ hf (fun y => by rw [get_upd]; split <;> rfl)
      · exact bounded_upd h' x (fun e => List.Sublist.refl _)
  | notify x n => exact bounded_put h _ _
  | take x =>
    refine bounded_upd h x (fun e => ?_)
    unfold Endpoint.take
    split
    · split
      · exact List.Sublist.refl _
      · split
        · exact List.Sublist.refl _
        · rename_i t q hq
          rw [hq]; exact List.sublist_cons_self _ _
    · exact List.Sublist.refl _
  | handle x => exact bounded_upd h x (fun e => by rw [(handle_frame e).2.2.2.2.2.1]; exact List.Sublist.refl _)
  | reply x i out =>
    show Bounded c (s.reply c x i out)
    unfold Net.reply
    split
    · exact h
    · have h' : ∀ req ok, Bounded c (s.upd x (fun e => { e with jobs := e.jobs.eraseIdx i, answered := e.answered ++ [(req, out, ok)] })) :=
        fun req ok => bounded_upd h x (fun e => List.Sublist.refl _)
      simp only
      split
      · rename_i hf
        exact bounded_push (h' _ _) x _ hf (fun y => by rw [get_upd]; split <;> rfl)
      · exact h' _ _
  | loopEnd x => exact bounded_upd h x (fun e => by unfold Endpoint.loopEnd; split <;> exact List.Sublist.refl _)
  | closeTell => exact bounded_put h _ _
  | closeFlag x => exact bounded_upd h x (fun e => List.Sublist.refl _)
  | closeEnd x =>
    refine bounded_sub h (fun y => ?_)
    show ((s.closeEnd x).get y).queue.Sublist _
    rcases get_closeEnd s x y with e | e <;> (rw [e]; exact List.Sublist.refl _)
  | tick x => exact bounded_upd h x (fun e => List.Sublist.refl _)

theorem bounded_run {c : Cfg} {s : Net D} (h : Bounded c s) (ops : List (Op D)) : Bounded c (s.run c ops) := by
  induction ops generalizing s with
  | nil => exact h
  | cons op ops ih => exact ih (bounded_step h op)

/-! ### The requests filed are the promises made -/

def AskedInv (s : Net D) : Prop := ∀ y, (s.get y).asked.map (fun p => (p.1, idText p.2.id)) = (s.get y).tab.sent

theorem askedInv_upd {s : Net D} (h : AskedInv s) (x : Bool) {f : Endpoint D → Endpoint D}
    (hf : ∀ e : Endpoint D, e.asked.map (fun p => (p.1, idText p.2.id)) = e.tab.sent →
      (f e).asked.map (fun p => (p.1, idText p.2.id)) = (f e).tab.sent) : AskedInv (s.upd x f) := by
  intro y; rw [get_upd]; split
  · exact hf _ (h y)
  · exact h y

theorem askedInv_push {s : Net D} (h : AskedInv s) (x : Bool) (t : Bytes) : AskedInv (s.push x t) := by
  intro y; rw [get_push]; split <;> exact h y

theorem askedInv_put {s : Net D} (h : AskedInv s) (c : Cfg) (x : Bool) (t : Bytes) : AskedInv (s.put c x t) := by
  unfold Net.put; split
  · exact askedInv_push h x t
  · exact h

theorem askedInv_step {s : Net D} (h : AskedInv s) (c : Cfg) (op : Op D) : AskedInv (s.step c op) := by
  cases op with
  | start x =>
    intro y
    show ((s.start x).get y).asked.map _ = ((s.start x).get y).tab.sent
    rcases get_start s x y with e | e <;> (rw [e]; exact h y)
  | send x r => exact askedInv_upd h x (fun e he => by unfold Endpoint.send; split <;> exact he)
  | file x i =>
    refine askedInv_upd h x (fun e he => ?_)
    unfold Endpoint.file
    split
    · exact he
    · simp only [PTab.insert, List.map_append, he]; rfl
  | deliver x i =>
    show AskedInv (s.deliver c x i)
    unfold Net.deliver
    split
    · exact h
    · have h' : AskedInv (s.upd x (fun e => { e with sending := e.sending.eraseIdx i })) := askedInv_upd h x (fun e he => he)
      simp only
      split
      · exact askedInv_push h' _ _
      · exact askedInv_upd h' x (fun e he => by simp only [PTab.complete_sent]; exact he)
  | notify x n => exact askedInv_put h c _ _
  | take x =>
    refine askedInv_upd h x (fun e he => ?_)
    obtain ⟨_, h2, _, _, _, _, h7, _⟩ := take_frame c x e
    rw [h2, h7]; exact he
  | handle x =>
    refine askedInv_upd h x (fun e he => ?_)
    rw [(handle_frame e).2.1, he]
    unfold Endpoint.handle
    split
    · rfl
    · show e.tab.sent = (e.apply _).tab.sent
      unfold Endpoint.apply
      split
      · exact (PTab.complete_sent ..).symm
      · rfl
      · rfl
      · rfl
  | reply x i out =>
    show AskedInv (s.reply c x i out)
    unfold Net.reply
    split
    · exact h
    · have h' : ∀ req ok, AskedInv (s.upd x (fun e => { e with jobs := e.jobs.eraseIdx i, answered := e.answered ++ [(req, out, ok)] })) :=
        fun req ok => askedInv_upd h x (fun e he => he)
      simp only
      split
      · exact askedInv_push (h' _ _) _ _
      · exact h' _ _
  | loopEnd x => exact askedInv_upd h x (fun e he => by unfold Endpoint.loopEnd; split <;> exact he)
  | closeTell => exact askedInv_put h c _ _
  | closeFlag x => exact askedInv_upd h x (fun e he => he)
  | closeEnd x =>
    intro y
    show ((s.closeEnd x).get y).asked.map _ = ((s.closeEnd x).get y).tab.sent
    rcases get_closeEnd s x y with e | e <;> (rw [e]; exact h y)
  | tick x => exact askedInv_upd h x (fun e he => he)

theorem askedInv_run (c : Cfg) (ha hb : Bool) (ops : List (Op D)) : AskedInv ((Net.init ha hb : Net D).run c ops) := by
  have : ∀ (s : Net D), AskedInv s → AskedInv (s.run c ops) := by
    induction ops with
    | nil => exact fun s h => h
    | cons op ops ih => exact fun s h => ih _ (askedInv_step h c op)
  exact this _ (by intro y; cases y <;> rfl)

/-- A list of pairs with distinct first (second) components is a function of them. -/
theorem fst_fun {α β : Type} {l : List (α × β)} (h : (l.map (·.1)).Nodup) {a : α} {b b' : β} (h1 : (a, b) ∈ l) (h2 : (a, b') ∈ l) : b = b' := by
  induction l with
  | nil => cases h1
  | cons p l ih =>
    simp only [List.map_cons, List.nodup_cons] at h
    rcases List.mem_cons.1 h1 with e1 | h1'
    · rcases List.mem_cons.1 h2 with e2 | h2'
      · rw [← e1] at e2; simp at e2; exact e2.symm
      · exact absurd (List.mem_map.2 ⟨_, h2', by rw [← e1]⟩) h.1
    · rcases List.mem_cons.1 h2 with e2 | h2'
      · exact absurd (List.mem_map.2 ⟨_, h1', by rw [← e2]⟩) h.1
      · exact ih h.2 h1' h2'

theorem snd_fun {α β : Type} {l : List (α × β)} (h : (l.map (·.2)).Nodup) {a a' : α} {b : β} (h1 : (a, b) ∈ l) (h2 : (a', b) ∈ l) : a = a' := by
  induction l with
  | nil => cases h1
  | cons p l ih =>
    simp only [List.map_cons, List.nodup_cons] at h
    rcases List.mem_cons.1 h1 with e1 | h1'
    · rcases List.mem_cons.1 h2 with e2 | h2'
      · rw [← e1] at e2; simp at e2; exact e2.symm
      · exact absurd (List.mem_map.2 ⟨_, h2', by rw [← e1]⟩) h.1
    · rcases List.mem_cons.1 h2 with e2 | h2'
      · exact absurd (List.mem_map.2 ⟨_, h1', by rw [← e2]⟩) h.1
      · exact ih h.2 h1' h2'

/-- A response completes the future of the request it answers, when the ids are distinct. -/
theorem own_future {s : Net D} (ht : TabInv s) (hk : AskedInv s) {y : Bool} (hd : ((s.get y).tab.sent.map (·.2)).Nodup) {n : Nat} {r : Response D}
    (hr : (n, Outcome.response r) ∈ (s.get y).tab.outcomes) {m : Nat} {req : Request D} (hm : (m, req) ∈ (s.get y).asked)
    (hid : r.id = req.id) : n = m := by
  rcases (ht y).1.fits n _ hr with h7 | ⟨k, h7, h8⟩
  · exact absurd h7 (fun h => h)
  · have e1 : idText r.id = k := h8
    have e2 : (m, idText req.id) ∈ (s.get y).tab.sent := by rw [← hk y]; exact List.mem_map.2 ⟨_, hm, rfl⟩
    rw [hid] at e1
    exact snd_fun hd (e1 ▸ h7) e2

theorem asked_fun {s : Net D} (ht : TabInv s) (hk : AskedInv s) {y : Bool} {n : Nat} {r r' : Request D} (h1 : (n, r) ∈ (s.get y).asked)
    (h2 : (n, r') ∈ (s.get y).asked) : r = r' := by
  have h := (ht y).1.sentFun
  rw [← hk y, List.map_map] at h
  exact fst_fun h h1 h2

end Verif.Shm
