import Verif.InMemory.Model
import Verif.Rpc.Props

/-! Helper lemmas for C16: invariants of a pair of in-memory endpoints. -/

set_option linter.unusedSectionVars false

namespace Verif.InMemory

open Verif.Stdio (idText)

variable {D : Type} [DblFmt D]

@[simp] theorem get_upd_same (s : Net D) (x : Bool) (f : Endpoint D → Endpoint D) : (s.upd x f).get x = f (s.get x) := by
  cases x <;> rfl

@[simp] theorem get_upd_not (s : Net D) (x : Bool) (f : Endpoint D → Endpoint D) : (s.upd x f).get (!x) = s.get (!x) := by
  cases x <;> rfl

@[simp] theorem get_upd_not' (s : Net D) (x : Bool) (f : Endpoint D → Endpoint D) : (s.upd (!x) f).get x = s.get x := by
  cases x <;> rfl

/-- A step by an update of one side. -/
theorem get_upd (s : Net D) (x y : Bool) (f : Endpoint D → Endpoint D) :
    (s.upd x f).get y = if y = x then f (s.get y) else s.get y := by
  cases x <;> cases y <;> rfl

theorem get_push (s : Net D) (x y : Bool) (t : Bytes) :
    (s.push x t).get y = if y = x then { s.get y with log := (s.get y).log ++ [t] }
      else { s.get y with queue := (s.get y).queue ++ [t] } := by
  cases x <;> cases y <;> rfl

/-! ### The promise tables -/

/-- Which outcomes fit a request filed under a key. -/
def Fits : Outcome D → Bytes → Prop
  | .response r, k => idText r.id = k
  | .peerGone id, k => idText id = k
  | .closed id, k => id = k
  | .broken, _ => False

def Loose : Outcome D → Prop
  | .broken => True
  | _ => False

def TabInv (s : Net D) : Prop :=
  ∀ y, (s.get y).tab.Inv Fits Loose ∧ ∀ p ∈ (s.get y).sending, p.1 = idText p.2.id

theorem tabInv_init (ha hb : Bool) : TabInv (Net.init ha hb : Net D) := by
  intro y; cases y <;> exact ⟨PTab.inv_init, by intro p hp; cases hp⟩

theorem tab_apply {e : Endpoint D} (h : e.tab.Inv Fits Loose) (ev : Event D) :
    (e.apply ev).tab.Inv Fits Loose ∧ (e.apply ev).sending = e.sending := by
  unfold Endpoint.apply
  split
  · exact ⟨PTab.inv_complete h _ (.inr rfl), rfl⟩
  · exact ⟨h, rfl⟩
  · exact ⟨h, rfl⟩

theorem tab_handle {e : Endpoint D} (h : e.tab.Inv Fits Loose) :
    e.handle.tab.Inv Fits Loose ∧ e.handle.sending = e.sending := by
  unfold Endpoint.handle
  split
  · exact ⟨h, rfl⟩
  · exact tab_apply h _

theorem tab_pop (e : Endpoint D) : e.pop.tab = e.tab ∧ e.pop.sending = e.sending := by
  unfold Endpoint.pop
  split
  · split <;> exact ⟨rfl, rfl⟩
  · exact ⟨rfl, rfl⟩

theorem mem_of_eraseIdx {α : Type} {l : List α} {i : Nat} {a : α} (h : a ∈ l.eraseIdx i) : a ∈ l :=
  (List.eraseIdx_sublist l i).subset h

theorem tabInv_push {s : Net D} (h : TabInv s) (x : Bool) (t : Bytes) : TabInv (s.push x t) := by
  intro y
  rw [get_push]
  split <;> exact h y

theorem tabInv_step {s : Net D} (h : TabInv s) (op : Op D) : TabInv (s.step op) := by
  cases op with
  | start x => intro y; show _ ∧ _; rw [Net.step, get_upd]; split <;> exact h y
  | closeFlag x => intro y; show _ ∧ _; rw [Net.step, get_upd]; split <;> exact h y
  | closeFail x =>
    intro y; show _ ∧ _; rw [Net.step, get_upd]; split
    · exact ⟨PTab.inv_closeAll (h y).1 (fun k => .inr rfl), (h y).2⟩
    · exact h y
  | send x r =>
    intro y; show _ ∧ _; rw [Net.step, get_upd]; split
    · refine ⟨PTab.inv_insert (h y).1 _ trivial, ?_⟩
      intro p hp
      rcases List.mem_append.1 hp with h1 | h1
      · exact (h y).2 p h1
      · simp at h1; rw [h1]
    · exact h y
  | deliver x i =>
    show TabInv (s.deliver x i)
    unfold Net.deliver
    split
    · exact h
    · rename_i key r hg
      have hmem := List.mem_of_getElem? hg
      have hk : key = idText r.id := (h x).2 _ hmem
      have h' : TabInv (s.upd x (fun e => { e with sending := e.sending.eraseIdx i })) := by
        intro y; rw [get_upd]; split
        · exact ⟨(h y).1, fun p hp => (h y).2 p (mem_of_eraseIdx hp)⟩
        · exact h y
      simp only
      split
      · exact tabInv_push h' _ _
      · intro y; rw [get_upd]; split
        · exact ⟨PTab.inv_complete (h' y).1 _ (.inr hk.symm), (h' y).2⟩
        · exact h' y
  | notify x n =>
    show TabInv (s.notify x n)
    unfold Net.notify
    split
    · exact tabInv_push h _ _
    · intro y; rw [get_upd]; split <;> exact h y
  | pop x =>
    intro y; show _ ∧ _; rw [Net.step, get_upd]; split
    · rw [(tab_pop _).1, (tab_pop _).2]; exact h y
    · exact h y
  | handle x =>
    intro y; show _ ∧ _; rw [Net.step, get_upd]; split
    · rw [(tab_handle (h y).1).2]; exact ⟨(tab_handle (h y).1).1, (h y).2⟩
    · exact h y
  | reply x i out =>
    show TabInv (s.reply x i out)
    unfold Net.reply
    split
    · exact h
    · have h' : ∀ req, TabInv (s.upd x (fun e => { e with jobs := e.jobs.eraseIdx i, answered := e.answered ++ [(req, out)] })) := by
        intro req y; rw [get_upd]; split <;> exact h y
      simp only
      split
      · exact tabInv_push (h' _) _ _
      · exact h' _

theorem tabInv_run {s : Net D} (h : TabInv s) (ops : List (Op D)) : TabInv (s.run ops) := by
  induction ops generalizing s with
  | nil => exact h
  | cons op ops ih => exact ih (tabInv_step h op)

/-! ### First in, first out -/

/-- What `y` has done is the first part of what its peer sent, in order. -/
def Fifo (s : Net D) : Prop :=
  ∀ y, ∃ pre, (s.get (!y)).log = pre ++ (s.get y).current.toList ++ (s.get y).queue ∧
    (s.get y).events = pre.map (eventOf (s.get y).hasHandler)

theorem fifo_init (ha hb : Bool) : Fifo (Net.init ha hb : Net D) := by
  intro y; exact ⟨[], by cases y <;> exact ⟨rfl, rfl⟩⟩

/-- Steps that leave log, queue, current and events alone. -/
theorem fifo_upd {s : Net D} (h : Fifo s) (x : Bool) {f : Endpoint D → Endpoint D}
    (hf : ∀ e, (f e).log = e.log ∧ (f e).queue = e.queue ∧ (f e).current = e.current ∧ (f e).events = e.events ∧
      (f e).hasHandler = e.hasHandler) : Fifo (s.upd x f) := by
  intro y
  obtain ⟨pre, h1, h2⟩ := h y
  refine ⟨pre, ?_⟩
  cases x <;> cases y <;> simp only [Net.upd, Net.get, Bool.not_true, Bool.not_false] at * <;>
    simp only [hf] <;> exact ⟨h1, h2⟩

theorem fifo_push {s : Net D} (h : Fifo s) (x : Bool) (t : Bytes) : Fifo (s.push x t) := by
  intro y
  obtain ⟨pre, h1, h2⟩ := h y
  refine ⟨pre, ?_⟩
  cases x <;> cases y <;> simp only [Net.push, Net.upd, Net.get, Bool.not_true, Bool.not_false] at * <;>
    refine ⟨?_, h2⟩ <;> rw [h1] <;> simp

theorem apply_frame (e : Endpoint D) (ev : Event D) :
    (e.apply ev).log = e.log ∧ (e.apply ev).queue = e.queue ∧ (e.apply ev).hasHandler = e.hasHandler ∧
    (e.apply ev).events = e.events ++ [ev] ∧ (e.apply ev).asked = e.asked ∧ (e.apply ev).answered = e.answered ∧
    (e.apply ev).sending = e.sending ∧ (e.apply ev).connected = e.connected ∧ (e.apply ev).counter = e.counter := by
  unfold Endpoint.apply
  split <;> exact ⟨rfl, rfl, rfl, rfl, rfl, rfl, rfl, rfl, rfl⟩

theorem fifo_own {s : Net D} (h : Fifo s) (x : Bool) {f : Endpoint D → Endpoint D}
    (hl : ∀ e, (f e).log = e.log)
    (hf : ∀ e pre L, L = pre ++ e.current.toList ++ e.queue → e.events = pre.map (eventOf e.hasHandler) →
      ∃ pre', L = pre' ++ (f e).current.toList ++ (f e).queue ∧ (f e).events = pre'.map (eventOf (f e).hasHandler)) :
    Fifo (s.upd x f) := by
  intro y
  obtain ⟨pre, h1, h2⟩ := h y
  by_cases hy : y = x
  · subst hy
    rw [get_upd_same, get_upd_not]
    exact hf _ pre _ h1 h2
  · have : x = !y := by cases x <;> cases y <;> simp_all
    subst this
    rw [get_upd_same, get_upd_not', hl]
    exact ⟨pre, h1, h2⟩

theorem pop_frame (e : Endpoint D) : e.pop.log = e.log ∧ e.pop.asked = e.asked ∧ e.pop.answered = e.answered ∧
    e.pop.jobs = e.jobs ∧ e.pop.events = e.events ∧ e.pop.hasHandler = e.hasHandler ∧ e.pop.tab = e.tab ∧
    e.pop.sending = e.sending ∧ e.pop.connected = e.connected := by
  unfold Endpoint.pop
  split
  · split <;> simp
  · simp

theorem handle_frame (e : Endpoint D) : e.handle.log = e.log ∧ e.handle.asked = e.asked ∧ e.handle.answered = e.answered ∧
    e.handle.sending = e.sending ∧ e.handle.hasHandler = e.hasHandler ∧ e.handle.connected = e.connected ∧
    e.handle.queue = e.queue := by
  unfold Endpoint.handle
  split
  · simp
  · obtain ⟨h1, h2, h3, h4, h5, h6, h7, h8, h9⟩ := apply_frame e (eventOf e.hasHandler ‹_›)
    exact ⟨h1, h5, h6, h7, h3, h8, h2⟩

theorem fifo_step {s : Net D} (h : Fifo s) (op : Op D) : Fifo (s.step op) := by
  cases op with
  | start x => exact fifo_upd h x (fun e => ⟨rfl, rfl, rfl, rfl, rfl⟩)
  | closeFlag x => exact fifo_upd h x (fun e => ⟨rfl, rfl, rfl, rfl, rfl⟩)
  | closeFail x => exact fifo_upd h x (fun e => ⟨rfl, rfl, rfl, rfl, rfl⟩)
  | send x r => exact fifo_upd h x (fun e => ⟨rfl, rfl, rfl, rfl, rfl⟩)
  | deliver x i =>
    show Fifo (s.deliver x i)
    unfold Net.deliver
    split
    · exact h
    · have h' : Fifo (s.upd x (fun e => { e with sending := e.sending.eraseIdx i })) := fifo_upd h x (fun e => ⟨rfl, rfl, rfl, rfl, rfl⟩)
      simp only
      split
      · exact fifo_push h' _ _
      · exact fifo_upd h' x (fun e => ⟨rfl, rfl, rfl, rfl, rfl⟩)
  | notify x n =>
    show Fifo (s.notify x n)
    unfold Net.notify
    split
    · exact fifo_push h _ _
    · exact fifo_upd h x (fun e => ⟨rfl, rfl, rfl, rfl, rfl⟩)
  | pop x =>
    refine fifo_own h x (fun e => (pop_frame e).1) ?_
    intro e pre L hL he
    refine ⟨pre, ?_, by rw [(pop_frame e).2.2.2.2.1, (pop_frame e).2.2.2.2.2.1]; exact he⟩
    rw [hL]
    unfold Endpoint.pop
    split
    · rename_i hc hq
      split
      · rw [hc, hq]; simp
      · rfl
    · rfl
  | handle x =>
    refine fifo_own h x (fun e => (handle_frame e).1) ?_
    intro e pre L hL he
    unfold Endpoint.handle
    split
    · exact ⟨pre, hL, he⟩
    · rename_i t hc
      obtain ⟨h1, h2, h3, h4, _⟩ := apply_frame e (eventOf e.hasHandler t)
      refine ⟨pre ++ [t], ?_, ?_⟩
      · simp only [Option.toList_none]; rw [h2, hL, hc]; simp
      · simp only; rw [h4, h3, he]; simp
  | reply x i out =>
    show Fifo (s.reply x i out)
    unfold Net.reply
    split
    · exact h
    · have h' : ∀ req, Fifo (s.upd x (fun e => { e with jobs := e.jobs.eraseIdx i, answered := e.answered ++ [(req, out)] })) :=
        fun req => fifo_upd h x (fun e => ⟨rfl, rfl, rfl, rfl, rfl⟩)
      simp only
      split
      · exact fifo_push (h' _) _ _
      · exact h' _

theorem fifo_run {s : Net D} (h : Fifo s) (ops : List (Op D)) : Fifo (s.run ops) := by
  induction ops generalizing s with
  | nil => exact h
  | cons op ops ih => exact ih (fifo_step h op)

/-! ### Each handled request is answered at most once -/

/-- The request an event hands to the request handler. -/
def Event.req? : Event D → Option (Request D)
  | .request r => some r
  | _ => none

def JobsInv (s : Net D) : Prop :=
  ∀ y, ((s.get y).events.filterMap Event.req?).Perm ((s.get y).jobs ++ (s.get y).answered.map (·.1))

theorem jobsInv_init (ha hb : Bool) : JobsInv (Net.init ha hb : Net D) := by
  intro y; cases y <;> exact List.Perm.refl _

theorem jobsInv_upd {s : Net D} (h : JobsInv s) (x : Bool) {f : Endpoint D → Endpoint D}
    (hf : ∀ e : Endpoint D, (e.events.filterMap Event.req?).Perm (e.jobs ++ e.answered.map (·.1)) →
      ((f e).events.filterMap Event.req?).Perm ((f e).jobs ++ (f e).answered.map (·.1))) : JobsInv (s.upd x f) := by
  intro y; rw [get_upd]; split
  · exact hf _ (h y)
  · exact h y

theorem jobsInv_push {s : Net D} (h : JobsInv s) (x : Bool) (t : Bytes) : JobsInv (s.push x t) := by
  intro y; rw [get_push]; split <;> exact h y

theorem perm_eraseIdx {α : Type} : ∀ {l : List α} {i : Nat} {a : α}, l[i]? = some a → (a :: l.eraseIdx i).Perm l
  | [], i, a, h => by simp at h
  | b :: l, 0, a, h => by simp at h; subst h; exact List.Perm.refl _
  | b :: l, i + 1, a, h => by
    simp only [List.getElem?_cons_succ] at h
    rw [List.eraseIdx_cons_succ]
    exact (List.Perm.swap _ _ _).trans ((perm_eraseIdx h).cons _)

theorem jobsInv_step {s : Net D} (h : JobsInv s) (op : Op D) : JobsInv (s.step op) := by
  cases op with
  | start x => exact jobsInv_upd h x (fun e he => he)
  | closeFlag x => exact jobsInv_upd h x (fun e he => he)
  | closeFail x => exact jobsInv_upd h x (fun e he => he)
  | send x r => exact jobsInv_upd h x (fun e he => he)
  | deliver x i =>
    show JobsInv (s.deliver x i)
    unfold Net.deliver
    split
    · exact h
    · have h' : JobsInv (s.upd x (fun e => { e with sending := e.sending.eraseIdx i })) := jobsInv_upd h x (fun e he => he)
      simp only
      split
      · exact jobsInv_push h' _ _
      · exact jobsInv_upd h' x (fun e he => he)
  | notify x n =>
    show JobsInv (s.notify x n)
    unfold Net.notify
    split
    · exact jobsInv_push h _ _
    · exact jobsInv_upd h x (fun e he => he)
  | pop x =>
    refine jobsInv_upd h x (fun e he => ?_)
    rw [(pop_frame e).2.2.2.2.1, (pop_frame e).2.2.2.1, (pop_frame e).2.2.1]; exact he
  | handle x =>
    refine jobsInv_upd h x (fun e he => ?_)
    unfold Endpoint.handle
    split
    · exact he
    · rename_i t hc
      simp only
      generalize eventOf (D := D) e.hasHandler t = ev
      unfold Endpoint.apply
      cases ev with
      | resolve r => simpa [Event.req?, List.filterMap_cons] using he
      | request r =>
        simp only [List.filterMap_append, List.filterMap_cons, Event.req?, List.filterMap_nil]
        refine (he.append_right _).trans ?_
        rw [List.append_assoc, List.append_assoc]
        exact List.Perm.append_left _ List.perm_append_comm
      | notification n => simpa [Event.req?, List.filterMap_cons] using he
      | dropped => simpa [Event.req?, List.filterMap_cons] using he
  | reply x i out =>
    show JobsInv (s.reply x i out)
    unfold Net.reply
    split
    · exact h
    · rename_i req hg
      have h' : JobsInv (s.upd x (fun e => { e with jobs := e.jobs.eraseIdx i, answered := e.answered ++ [(req, out)] })) := by
        intro y; rw [get_upd]; split
        · rename_i hy; subst hy
          refine (h y).trans ?_
          simp only [List.map_append, List.map_cons, List.map_nil]
          refine ((perm_eraseIdx hg).symm.append_right _).trans ?_
          rw [← List.append_assoc, List.cons_append]
          exact (List.perm_append_singleton _ _).symm
        · exact h y
      simp only
      split
      · exact jobsInv_push h' _ _
      · exact h'

theorem jobsInv_run {s : Net D} (h : JobsInv s) (ops : List (Op D)) : JobsInv (s.run ops) := by
  induction ops generalizing s with
  | nil => exact h
  | cons op ops ih => exact ih (jobsInv_step h op)

end Verif.InMemory
