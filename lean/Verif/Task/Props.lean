import Verif.Task.Model
import Verif.Json.Props

/-! C17-C20: the task store and task serialisation. -/

namespace Verif

open Tasks

variable {D : Type}

namespace Tasks

theorem natDec_inj {a b : Nat} (h : natDec a = natDec b) : a = b := by
  have := congrArg digitsVal h
  rwa [digitsVal_natDec, digitsVal_natDec] at this

/-- The id of the n-th task (counting from 0). -/
def idOf (n : Nat) : Bytes := lit "task-" ++ natDec (n + 1)

theorem idOf_inj {a b : Nat} (h : idOf a = idOf b) : a = b := by
  have := natDec_inj (List.append_cancel_left h)
  omega

/-- Number of task creations in a history. -/
def creates (ops : List (SOp D)) : Nat :=
  (ops.filter (fun op => match op with | .create .. => true | _ => false)).length

/-- The store after `n` creations. -/
structure Inv (n : Nat) (s : Store D) : Prop where
  order : s.order = (List.range n).map idOf
  next : s.nextId = n + 1
  keys : ∀ id, (AMap.get s.records id).isSome ↔ id ∈ s.order
  self : ∀ id r, AMap.get s.records id = some r → r.task.taskId = id

theorem inv_init : Inv 0 (Store.init : Store D) := by
  refine ⟨rfl, rfl, ?_, ?_⟩
  · intro id; simp [Store.init, AMap.get]
  · intro id r h; cases h

theorem setTerminal_cases (s : Store D) (id st : Bytes) (m : Option Bytes) (e : Bool) (p : JVal D) (rs : Bool) (now : Bytes) :
    (s.setTerminal id st m e p rs now).2.2 = s ∨
    ∃ r, AMap.get s.records id = some r ∧ r.payload = none ∧ isTerminal r.task.status = false ∧
      s.setTerminal id st m e p rs now = (true, some { r.task with status := st, statusMessage := m, lastUpdatedAt := now },
        { s with records := AMap.put s.records id ⟨{ r.task with status := st, statusMessage := m, lastUpdatedAt := now }, r.kind, r.stopped || rs, e, some p⟩,
                 emitted := s.emitted ++ [{ r.task with status := st, statusMessage := m, lastUpdatedAt := now }] }) := by
  unfold Store.setTerminal
  cases hg : AMap.get s.records id with
  | none => exact .inl rfl
  | some r =>
    simp only
    split
    · exact .inl rfl
    · rename_i h
      simp only [Bool.or_eq_true, not_or, Bool.not_eq_true, Option.isSome_eq_false_iff, Option.isNone_iff_eq_none] at h
      exact .inr ⟨r, rfl, h.1, h.2, rfl⟩

theorem inv_setTerminal {n : Nat} {s : Store D} (h : Inv n s) (id st : Bytes) (m : Option Bytes) (e : Bool) (p : JVal D)
    (rs : Bool) (now : Bytes) : Inv n (s.setTerminal id st m e p rs now).2.2 := by
  rcases setTerminal_cases s id st m e p rs now with h1 | ⟨r, hg, _, _, h1⟩
  · rw [h1]; exact h
  · rw [h1]
    refine ⟨h.order, h.next, ?_, ?_⟩
    · intro id'
      simp only
      rw [AMap.get_put]
      split
      · rename_i e; subst e
        simp only [Option.isSome_some, true_iff]
        exact (h.keys _).1 (by rw [hg]; rfl)
      · exact h.keys id'
    · intro id' r' hr
      simp only at hr
      rw [AMap.get_put] at hr
      split at hr
      · rename_i e; subst e
        cases hr; exact h.self _ r hg
      · exact h.self id' r' hr

theorem inv_create {n : Nat} {s : Store D} (h : Inv n s) (hn : n + 2 < 2 ^ 64) (k : Kind) (ttl : Option Int) (now : Bytes) :
    Inv (n + 1) (s.create k ttl now).2 := by
  have hid : lit "task-" ++ natDec s.nextId = idOf n := by rw [h.next]; rfl
  unfold Store.create
  refine ⟨?_, ?_, ?_, ?_⟩
  · simp only; rw [h.order, hid, List.range_succ]; simp
  · simp only; rw [h.next]; omega
  · intro id
    simp only
    rw [AMap.get_put]
    split
    · rename_i e; subst e; simp
    · rename_i e
      rw [h.keys id, List.mem_append]
      simp [e]
  · intro id r hr
    simp only at hr
    rw [AMap.get_put] at hr
    split at hr
    · rename_i e; cases hr; exact e.symm
    · exact h.self id r hr

theorem inv_run {ops : List (SOp D)} : ∀ {n : Nat} {s : Store D}, Inv n s → n + creates ops + 1 < 2 ^ 64 →
    Inv (n + creates ops) (s.run ops) := by
  induction ops with
  | nil => intro n s h _; exact h
  | cons op ops ih =>
    intro n s h hn
    cases op with
    | create k ttl now =>
      have hc : creates (SOp.create k ttl now :: ops) = creates ops + 1 := by
        show ((SOp.create k ttl now :: ops).filter _).length = _
        rw [List.filter_cons, if_pos rfl]; rfl
      rw [hc] at hn ⊢
      have := ih (inv_create h (by omega) k ttl now) (by omega)
      rw [show n + (creates ops + 1) = n + 1 + creates ops from by omega]
      exact this
    | complete id st m e p now =>
      have hc : creates (SOp.complete id st m e p now :: ops) = creates ops := by
        show ((SOp.complete id st m e p now :: ops).filter _).length = _
        rw [List.filter_cons, if_neg (by simp)]; rfl
      rw [hc] at hn ⊢
      exact ih (inv_setTerminal h _ _ _ _ _ _ _) hn
    | cancel id p now =>
      have hc : creates (SOp.cancel id p now :: ops) = creates ops := by
        show ((SOp.cancel id p now :: ops).filter _).length = _
        rw [List.filter_cons, if_neg (by simp)]; rfl
      rw [hc] at hn ⊢
      exact ih (inv_setTerminal h _ _ _ _ _ _ _) hn

theorem creates_append (a b : List (SOp D)) : creates (a ++ b) = creates a + creates b := by
  simp [creates, List.filter_append]

theorem run_append (s : Store D) (a b : List (SOp D)) : s.run (a ++ b) = (s.run a).run b := by
  simp [Store.run, List.foldl_append]

theorem inv_of_run (ops : List (SOp D)) (h : creates ops + 1 < 2 ^ 64) : Inv (creates ops) (Store.init.run ops) := by
  have := inv_run (ops := ops) inv_init (by omega)
  rwa [Nat.zero_add] at this

theorem fresh_id {n : Nat} {s : Store D} (h : Inv n s) : AMap.get s.records (lit "task-" ++ natDec s.nextId) = none := by
  cases hg : AMap.get s.records (lit "task-" ++ natDec s.nextId) with
  | none => rfl
  | some r =>
    have := (h.keys _).1 (by rw [hg]; rfl)
    rw [h.order, h.next] at this
    obtain ⟨i, hi, he⟩ := List.mem_map.1 this
    have := idOf_inj (he.trans rfl : idOf i = idOf n)
    simp at hi; omega

/-- What one step does to an existing record. -/
theorem step_record {n : Nat} {s : Store D} (h : Inv n s) (op : SOp D) {id : Bytes} {r : Record D}
    (hg : AMap.get s.records id = some r) :
    ∃ r', AMap.get (s.step op).records id = some r' ∧ r'.kind = r.kind ∧ r'.task.taskId = r.task.taskId ∧
      r'.task.createdAt = r.task.createdAt ∧ r'.task.ttl = r.task.ttl ∧ (r.payload.isSome ∨ isTerminal r.task.status = true → r' = r) := by
  have term : ∀ id0 st m e p rs now, ∃ r', AMap.get (s.setTerminal id0 st m e p rs now).2.2.records id = some r' ∧ r'.kind = r.kind ∧
      r'.task.taskId = r.task.taskId ∧ r'.task.createdAt = r.task.createdAt ∧ r'.task.ttl = r.task.ttl ∧
      (r.payload.isSome ∨ isTerminal r.task.status = true → r' = r) := by
    intro id0 st m e p rs now
    rcases setTerminal_cases s id0 st m e p rs now with h1 | ⟨r0, hg0, hp, ht, h1⟩
    · rw [h1]; exact ⟨r, hg, rfl, rfl, rfl, rfl, fun _ => rfl⟩
    · rw [h1]; simp only
      rw [AMap.get_put]
      split
      · rename_i e; subst e
        rw [hg] at hg0; cases hg0
        exact ⟨_, rfl, rfl, rfl, rfl, rfl, by rw [hp, ht]; simp⟩
      · exact ⟨r, hg, rfl, rfl, rfl, rfl, fun _ => rfl⟩
  cases op with
  | create k ttl now =>
    refine ⟨r, ?_, rfl, rfl, rfl, rfl, fun _ => rfl⟩
    show AMap.get (AMap.put s.records (lit "task-" ++ natDec s.nextId) _) id = some r
    rw [AMap.get_put, if_neg]
    · exact hg
    · intro e; subst e; rw [fresh_id h] at hg; cases hg
  | complete id0 st m e p now => exact term id0 st m e p false now
  | cancel id0 p now => exact term id0 _ _ _ p true now

theorem run_record {ops : List (SOp D)} : ∀ {n : Nat} {s : Store D}, Inv n s → n + creates ops + 1 < 2 ^ 64 →
    ∀ {id : Bytes} {r : Record D}, AMap.get s.records id = some r →
    ∃ r', AMap.get (s.run ops).records id = some r' ∧ r'.kind = r.kind ∧ r'.task.taskId = r.task.taskId ∧
      r'.task.createdAt = r.task.createdAt ∧ r'.task.ttl = r.task.ttl ∧ (r.payload.isSome ∨ isTerminal r.task.status = true → r' = r) := by
  induction ops with
  | nil => intro n s h _ id r hg; exact ⟨r, hg, rfl, rfl, rfl, rfl, fun _ => rfl⟩
  | cons op ops ih =>
    intro n s h hn id r hg
    obtain ⟨r1, hg1, a1, a2, a3, a4, a5⟩ := step_record h op hg
    have hc : creates (op :: ops) = creates [op] + creates ops := creates_append [op] ops
    have h1 : Inv (n + creates [op]) (s.step op) := inv_run (ops := [op]) h (by omega)
    obtain ⟨r2, hg2, b1, b2, b3, b4, b5⟩ := ih h1 (by omega) hg1
    refine ⟨r2, hg2, b1.trans a1, b2.trans a2, b3.trans a3, b4.trans a4, ?_⟩
    intro ht
    have e := a5 ht
    subst e
    exact b5 ht

end Tasks

/-! ### C17 -/

/-- **C17.** In every history of fewer than 2^64 - 1 creations, all task ids are distinct. (`nextId_` is a 64-bit counter; a history
beyond that bound would have to hold 2^64 records in memory.) -/
theorem C17_ids_unique (ops : List (SOp D)) (h : creates ops + 1 < 2 ^ 64) :
    (Store.init.run ops).order.Nodup ∧ (Store.init.run ops).order.length = creates ops := by
  have hi := inv_of_run ops h
  rw [hi.order]
  refine ⟨?_, by simp⟩
  refine List.Pairwise.map idOf ?_ List.nodup_range
  intro a b hab e
  exact hab (idOf_inj e)

/-- **C17.** A newly created task has an id that denoted nothing before, and denotes the new task afterwards. -/
theorem C17_fresh (ops : List (SOp D)) (h : creates ops + 1 < 2 ^ 64) (k : Kind) (ttl : Option Int) (now : Bytes) :
    let s := Store.init.run ops
    let c := s.create k ttl now
    s.getTask c.1.taskId = none ∧ c.1.taskId ∉ s.order ∧ c.2.getTask c.1.taskId = some c.1 ∧ c.1.status = lit "working" ∧ c.1.ttl = ttl := by
  intro s c
  have hi : Inv _ s := inv_of_run ops h
  have hf := fresh_id hi
  refine ⟨?_, ?_, ?_, rfl, rfl⟩
  · show (AMap.get s.records (lit "task-" ++ natDec s.nextId)).map _ = none
    rw [hf]; rfl
  · intro hm
    have := (hi.keys _).2 hm
    rw [show c.1.taskId = lit "task-" ++ natDec s.nextId from rfl, hf] at this
    cases this
  · show (AMap.get (AMap.put s.records c.1.taskId _) c.1.taskId).map _ = _
    rw [AMap.get_put_self]; rfl

/-- **C17.** A task id never denotes a different task later: once an id denotes a task, it denotes that task (same kind, id, creation
time and ttl) in every later state. -/
theorem C17_id_stable (ops more : List (SOp D)) (h : creates (ops ++ more) + 1 < 2 ^ 64) (id : Bytes) (t : Task)
    (ht : (Store.init.run ops).getTask id = some t) :
    ∃ t', (Store.init.run (ops ++ more)).getTask id = some t' ∧ t.taskId = id ∧ t'.taskId = id ∧ t'.createdAt = t.createdAt ∧ t'.ttl = t.ttl := by
  rw [creates_append] at h
  have hi := inv_of_run ops (by omega)
  unfold Store.getTask at ht
  rw [Option.map_eq_some_iff] at ht
  obtain ⟨r, hr, rfl⟩ := ht
  obtain ⟨r', h1, _, h3, h4, h5, _⟩ := run_record (ops := more) hi (by omega) hr
  rw [run_append]
  have hs := hi.self id r hr
  exact ⟨r'.task, by unfold Store.getTask; rw [h1]; rfl, hs, h3.trans hs, h4, h5⟩

example : creates ([.create .toolCall (some 5) (lit "t"), .cancel (lit "task-1") .null (lit "u"), .create .toolCall none (lit "v")] : List (SOp Empty)) + 1 < 2 ^ 64 ∧
    ((Store.init.run ([.create .toolCall (some 5) (lit "t"), .cancel (lit "task-1") .null (lit "u")] : List (SOp Empty))).getTask (lit "task-1")).isSome := by
  decide +kernel

/-! ### C18 -/

/-- **C18.** Once a task has a terminal status or a result, no continuation changes anything about it. -/
theorem C18_finished_immutable (ops more : List (SOp D)) (h : creates (ops ++ more) + 1 < 2 ^ 64) (id : Bytes) (r : Record D)
    (hr : AMap.get (Store.init.run ops).records id = some r) (hf : r.payload.isSome ∨ isTerminal r.task.status = true) :
    AMap.get (Store.init.run (ops ++ more)).records id = some r := by
  rw [creates_append] at h
  have hi := inv_of_run ops (by omega)
  obtain ⟨r', h1, _, _, _, _, h6⟩ := run_record (ops := more) hi (by omega) hr
  rw [run_append, h1, h6 hf]

/-- Whether an operation is a terminal transition of `id` that reports success. -/
def Wins (id : Bytes) (s : Store D) : SOp D → Bool
  | .create .. => false
  | .complete id' st m e p now => decide (id' = id) && (s.complete id' st m e p now).1
  | .cancel id' p now => decide (id' = id) && (s.cancel id' p now).1

/-- Number of successful terminal transitions of `id` in a history. -/
def winCount (id : Bytes) : Store D → List (SOp D) → Nat
  | _, [] => 0
  | s, op :: ops => (if Wins id s op then 1 else 0) + winCount id (s.step op) ops

theorem wins_false {s : Store D} {id : Bytes} {r : Record D} (hr : AMap.get s.records id = some r) (hf : r.payload.isSome) (op : SOp D) :
    Wins id s op = false := by
  have key : ∀ st m e p rs now, (s.setTerminal id st m e p rs now).1 = false := by
    intro st m e p rs now
    unfold Store.setTerminal
    rw [hr]; simp [hf]
  cases op with
  | create => rfl
  | complete id' st m e p now =>
    simp only [Wins]
    by_cases h : id' = id
    · subst h; simp [Store.complete, key]
    · simp [h]
  | cancel id' p now =>
    simp only [Wins]
    by_cases h : id' = id
    · subst h; simp [Store.cancel, key]
    · simp [h]

theorem winCount_finished {ops : List (SOp D)} : ∀ {n : Nat} {s : Store D} {id : Bytes} {r : Record D}, Inv n s → n + creates ops + 1 < 2 ^ 64 →
    AMap.get s.records id = some r → r.payload.isSome → winCount id s ops = 0 := by
  induction ops with
  | nil => intros; rfl
  | cons op ops ih =>
    intro n s id r h hn hr hf
    have hc : creates (op :: ops) = creates [op] + creates ops := creates_append [op] ops
    obtain ⟨r1, hg1, _, _, _, _, a5⟩ := step_record h op hr
    have := a5 (.inl hf); subst this
    simp only [winCount, wins_false hr hf op]
    have h1 : Inv (n + creates [op]) (s.step op) := inv_run (ops := [op]) h (by omega)
    rw [ih h1 (by omega) hg1 hf]
    simp

/-- A successful transition leaves a result behind. -/
theorem wins_finishes {s : Store D} {id : Bytes} {op : SOp D} (hw : Wins id s op = true) :
    ∃ r, AMap.get (s.step op).records id = some r ∧ r.payload.isSome := by
  have key : ∀ st m e p rs now, (s.setTerminal id st m e p rs now).1 = true →
      ∃ r, AMap.get (s.setTerminal id st m e p rs now).2.2.records id = some r ∧ r.payload.isSome := by
    intro st m e p rs now ht
    unfold Store.setTerminal at ht ⊢
    cases hg : AMap.get s.records id with
    | none => rw [hg] at ht; cases ht
    | some r =>
      rw [hg] at ht
      simp only at ht ⊢
      split at ht
      · cases ht
      · rename_i hc
        rw [if_neg hc]
        exact ⟨_, AMap.get_put_self _ _ _, rfl⟩
  cases op with
  | create => cases hw
  | complete id' st m e p now =>
    simp only [Wins, Bool.and_eq_true, decide_eq_true_eq] at hw
    obtain ⟨rfl, hw⟩ := hw
    exact key _ _ _ _ _ _ hw
  | cancel id' p now =>
    simp only [Wins, Bool.and_eq_true, decide_eq_true_eq] at hw
    obtain ⟨rfl, hw⟩ := hw
    exact key _ _ _ _ _ _ hw

theorem winCount_le {ops : List (SOp D)} : ∀ {n : Nat} {s : Store D} {id : Bytes}, Inv n s → n + creates ops + 1 < 2 ^ 64 →
    winCount id s ops ≤ 1 := by
  induction ops with
  | nil => intros; exact Nat.zero_le _
  | cons op ops ih =>
    intro n s id h hn
    have hc : creates (op :: ops) = creates [op] + creates ops := creates_append [op] ops
    have h1 : Inv (n + creates [op]) (s.step op) := inv_run (ops := [op]) h (by omega)
    simp only [winCount]
    split
    · rename_i hw
      obtain ⟨r, hr, hf⟩ := wins_finishes hw
      rw [winCount_finished h1 (by omega) hr hf]
      omega
    · have := ih (id := id) h1 (by omega)
      omega

/-- **C18.** Among all completions, failures and cancellations of a task in any order, at most one reports success. -/
theorem C18_first_transition_wins (ops : List (SOp D)) (h : creates ops + 1 < 2 ^ 64) (id : Bytes) :
    winCount id Store.init ops ≤ 1 :=
  winCount_le inv_init (by omega)

/-- **C18.** The first terminal transition of a live task succeeds, its status and payload are what waiting for the result and asking
for the task return, a cancellation also requests the handler to stop. -/
theorem C18_transition_effect (s : Store D) (id : Bytes) (r : Record D) (hr : AMap.get s.records id = some r)
    (hl : r.payload = none ∧ isTerminal r.task.status = false) (st : Bytes) (m : Option Bytes) (e : Bool) (p : JVal D) (now : Bytes) :
    (let c := s.complete id st m e p now
     c.1 = true ∧ (∃ t, c.2.2.getTask id = some t ∧ c.2.1 = some t ∧ t.status = st ∧ t.statusMessage = m) ∧ c.2.2.wait id = .got e p) ∧
    (let c := s.cancel id p now
     c.1 = true ∧ (∃ t, c.2.2.getTask id = some t ∧ c.2.1 = some t ∧ t.status = lit "cancelled") ∧ c.2.2.wait id = .got true p ∧
     ∃ r', AMap.get c.2.2.records id = some r' ∧ r'.stopped = true) := by
  obtain ⟨h1, h2⟩ := hl
  have h3 : ¬ ((r.payload.isSome || isTerminal r.task.status) = true) := by rw [h1, h2]; simp
  constructor
  · simp only [Store.complete, Store.setTerminal, hr, if_neg h3]
    refine ⟨trivial, ⟨_, ?_, rfl, rfl, rfl⟩, ?_⟩
    · simp [Store.getTask, AMap.get_put_self]
    · simp [Store.wait, AMap.get_put_self]
  · simp only [Store.cancel, Store.setTerminal, hr, if_neg h3]
    refine ⟨trivial, ⟨_, ?_, rfl, rfl⟩, ?_, ⟨_, AMap.get_put_self _ _ _, by simp⟩⟩
    · simp [Store.getTask, AMap.get_put_self]
    · simp [Store.wait, AMap.get_put_self]

/-- **C18.** `tasks/cancel` of a finished or unknown task is refused with invalid params and changes nothing. -/
theorem C18_cancel_finished_refused (s : Store D) (params : Option (JVal D)) (id now : Bytes) (hp : taskIdParam params = some id)
    (hf : ∀ r, AMap.get s.records id = some r → r.payload.isSome ∨ isTerminal r.task.status = true) :
    handleCancel s true params now = (.fail (-32602) (lit "Task is not cancellable"), s) := by
  unfold handleCancel
  rw [if_pos rfl, hp]
  simp only [Store.cancel, Store.setTerminal]
  cases hg : AMap.get s.records id with
  | none => rfl
  | some r =>
    simp only
    rw [if_pos (by rcases hf r hg with h | h <;> simp [h])]
    rfl

example : ∃ r, AMap.get (Store.init.run ([.create .toolCall none (lit "t"), .complete (lit "task-1") (lit "failed") none true .null (lit "u")] : List (SOp Empty))).records
    (lit "task-1") = some r ∧ (r.payload.isSome ∨ isTerminal r.task.status = true) :=
  ⟨⟨⟨lit "task-1", lit "failed", none, lit "t", lit "u", none, some 100⟩, .toolCall, false, true, some .null⟩, rfl, .inl rfl⟩

/-! ### C19 -/

/-- What a client sees when it asks for a page: `Client::ListTasksPaged` against the `tasks/list` handler. -/
def fetch (s : Store D) (cursor : Option Bytes) (limit : Int) : Option (List Task × Option Bytes) :=
  match handleList s (listRequest cursor (some limit)) with
  | .ok v => some (parseList v)
  | .fail .. => none

/-- A client following `nextCursor`, with any operations on the store between two pages: the ids seen, and the operations. -/
inductive Walk (limit : Int) : Store D → Option Bytes → List Bytes → List (SOp D) → Prop
  | last {s : Store D} {c : Option Bytes} {ts : List Task} : fetch s c limit = some (ts, none) → Walk limit s c (ts.map (·.taskId)) []
  | more {s : Store D} {c : Option Bytes} {c' : Bytes} {ts : List Task} {rest : List Bytes} {ops ops' : List (SOp D)} :
      fetch s c limit = some (ts, some c') → Walk limit (s.run ops) (some c') rest ops' →
      Walk limit s c (ts.map (·.taskId) ++ rest) (ops ++ ops')

theorem serTask_parse (t : Task) : parseTask (serTask t : JVal D) = t := by
  obtain ⟨a, b, c, d, e, f, g⟩ := t
  cases c <;> cases f <;> cases g <;> rfl

theorem serList_parse (ts : List Task) (c : Option Bytes) : parseList (Tasks.serList ts c : JVal D) = (ts, c) := by
  have h : ((ts.map serTask : List (JVal D)).map parseTask) = ts := by
    rw [List.map_map]
    exact (List.map_congr_left (fun t _ => serTask_parse t)).trans (List.map_id ts)
  cases c with
  | none => exact Prod.ext h rfl
  | some c => exact Prod.ext h rfl

/-- The cursor standing for position `k`. -/
def CurAt (k : Nat) (c : Option Bytes) : Prop := (c = none ∧ k = 0) ∨ c = some (natDec k)

theorem fetch_eq (s : Store D) {k : Nat} {c : Option Bytes} (hc : CurAt k c) (hk : k < 2 ^ 63) {limit : Int} (h0 : 0 < limit)
    (h1 : limit < 2 ^ 31) : fetch s c limit = some (s.list k (some limit.toNat)) := by
  have hl : toSize limit = limit.toNat := by unfold toSize; omega
  have hp : listParams (listRequest (D := D) c (some limit)) = .ok (k, some limit.toNat) := by
    rcases hc with ⟨rfl, rfl⟩ | rfl
    · have e1 : ¬ (lit "limit" = lit "cursor") := by decide
      have e2 : ¬ (limit ≤ 0) := by omega
      simp [listRequest, optField, h0, listParams, AMap.get, e1, e2, hl]
    · have e1 : ¬ (lit "limit" = lit "cursor") := by decide
      have e2 : ¬ (limit ≤ 0) := by omega
      have e3 : ¬ (lit "cursor" = lit "limit") := by decide
      simp [listRequest, optField, h0, listParams, AMap.get, e2, e3, hl, stoll_natDec hk, toSize_nat (show k < 2 ^ 64 by omega)]
  unfold fetch handleList
  rw [hp]
  simp only
  rw [serList_parse]

/-- The ids on a page. -/
theorem page_ids {n : Nat} {s : Store D} (h : Inv n s) (ids : List Bytes) (hs : ∀ id ∈ ids, id ∈ s.order) :
    (ids.filterMap (fun id => (AMap.get s.records id).map (·.task))).map (·.taskId) = ids := by
  induction ids with
  | nil => rfl
  | cons id ids ih =>
    have hk := (h.keys id).2 (hs id (by simp))
    cases hg : AMap.get s.records id with
    | none => rw [hg] at hk; cases hk
    | some r =>
      have hr := h.self id r hg
      rw [List.filterMap_cons, hg]
      simp only [Option.map_some, List.map_cons, hr]
      rw [ih (fun x hx => hs x (by simp [hx]))]

theorem list_ids {n : Nat} {s : Store D} (h : Inv n s) (hn : n < 2 ^ 63) {start limit : Nat} (hl : limit < 2 ^ 31) :
    (s.list start (some limit)).1.map (·.taskId) = (s.order.take (start + limit)).drop start ∧
    (s.list start (some limit)).2 = if start + limit < n then some (natDec (start + limit)) else none := by
  have hlen : s.order.length = n := by rw [h.order]; simp
  unfold Store.list
  by_cases hs : start ≥ s.order.length
  · rw [if_pos hs]
    refine ⟨?_, by rw [if_neg (by omega)]⟩
    rw [List.drop_eq_nil_of_le (by rw [List.length_take]; omega)]; rfl
  · rw [if_neg hs]
    have hm : (start + limit) % 2 ^ 64 = start + limit := Nat.mod_eq_of_lt (by omega)
    have he : pageEnd s.order.length start (some limit) = min s.order.length (start + limit) := by simp only [pageEnd, hm]
    generalize pageEnd s.order.length start (some limit) = e at he ⊢
    simp only
    constructor
    · rw [page_ids h]
      · by_cases hle : s.order.length ≤ start + limit
        · rw [List.take_of_length_le hle, List.take_of_length_le (by omega)]
        · rw [show e = start + limit by omega]
      · intro id hid
        exact List.mem_of_mem_take (List.mem_of_mem_drop hid)
    · by_cases hle : start + limit < n
      · rw [if_pos hle, show e = start + limit by omega]; simp [hlen, hle]
      · rw [if_neg hle, if_neg]; simp; omega

theorem order_run {n : Nat} {s : Store D} (h : Inv n s) {ops : List (SOp D)} (hn : n + creates ops + 1 < 2 ^ 64) :
    (s.run ops).order.take n = s.order := by
  have h2 := inv_run (ops := ops) h hn
  rw [h2.order, h.order, ← List.map_take, List.take_range]
  congr 2; omega

theorem walk_ids {limit : Int} (h0 : 0 < limit) (h1 : limit < 2 ^ 31) {s : Store D} {c : Option Bytes} {ids : List Bytes} {ops : List (SOp D)}
    (hw : Walk limit s c ids ops) : ∀ {n k : Nat}, Inv n s → CurAt k c → k ≤ n → n + creates ops < 2 ^ 63 →
    ids = (s.run ops).order.drop k := by
  induction hw with
  | @last s c ts hf =>
    intro n k h hc hk hn
    rw [fetch_eq s hc (by omega) h0 h1] at hf
    obtain ⟨a1, a2⟩ := list_ids (start := k) h (by omega) (limit := limit.toNat) (by omega)
    rw [Option.some.injEq, Prod.ext_iff] at hf
    rw [hf.1] at a1; rw [hf.2] at a2
    rw [a1]
    have : ¬ (k + limit.toNat < n) := by intro hlt; rw [if_pos hlt] at a2; cases a2
    rw [List.take_of_length_le (by rw [h.order]; simp; omega)]
    rfl
  | @more s c c' ts rest ops ops' hf _ ih =>
    intro n k h hc hk hn
    rw [creates_append] at hn
    rw [fetch_eq s hc (by omega) h0 h1] at hf
    obtain ⟨a1, a2⟩ := list_ids (start := k) h (by omega) (limit := limit.toNat) (by omega)
    rw [Option.some.injEq, Prod.ext_iff] at hf
    rw [hf.1] at a1; rw [hf.2] at a2
    have hlt : k + limit.toNat < n := by
      apply Decidable.byContradiction; intro hlt; rw [if_neg hlt] at a2; cases a2
    rw [if_pos hlt] at a2
    simp only at a2
    have h2 := inv_run (ops := ops) h (by omega)
    have hr := ih (k := k + limit.toNat) h2 (.inr a2) (by omega) (by omega)
    rw [run_append, hr, a1]
    have h3 := order_run h2 (ops := ops') (by omega)
    have h4 := order_run h (ops := ops) (by omega)
    have h5 : s.order.take (k + limit.toNat) = ((s.run ops).run ops').order.take (k + limit.toNat) := by
      rw [← h4, ← h3, List.take_take, List.take_take]; congr 1; omega
    rw [h5, List.drop_take, show k + limit.toNat - k = limit.toNat by omega]
    rw [← List.drop_drop, List.take_append_drop]

/-- **C19.** Following `nextCursor` from the start with any positive page size shows every task exactly once, in creation order, and
leaves none out - even when tasks are created, finished or cancelled between two pages. (`limit` is an `int`; fewer than 2^63 tasks.) -/
theorem C19_pages_show_every_task (ops more : List (SOp D)) (hn : creates (ops ++ more) < 2 ^ 63) (limit : Int) (h0 : 0 < limit)
    (h1 : limit < 2 ^ 31) (ids : List Bytes) (hw : Walk limit (Store.init.run ops) none ids more) :
    ids = (Store.init.run (ops ++ more)).order ∧ ids.Nodup := by
  have hn' := hn
  rw [creates_append] at hn
  have := walk_ids h0 h1 hw (k := 0) (inv_of_run ops (by omega)) (.inl ⟨rfl, rfl⟩) (by omega) hn
  rw [run_append, this]
  refine ⟨rfl, ?_⟩
  rw [List.drop_zero, ← run_append]
  exact (C17_ids_unique _ (by omega)).1

theorem walk_exists {limit : Int} (h0 : 0 < limit) (h1 : limit < 2 ^ 31) {n : Nat} {s : Store D} (h : Inv n s) (hn : n < 2 ^ 63) :
    ∀ (m k : Nat) (c : Option Bytes), n - k = m → CurAt k c → k ≤ n → ∃ ids, Walk limit s c ids [] := by
  intro m
  induction m using Nat.strongRecOn with
  | _ m ih =>
    intro k c hm hc hk
    have hf := fetch_eq s hc (by omega) h0 h1
    obtain ⟨_, a2⟩ := list_ids (start := k) h hn (limit := limit.toNat) (by omega)
    by_cases hlt : k + limit.toNat < n
    · rw [if_pos hlt] at a2
      obtain ⟨ids, hw⟩ := ih (n - (k + limit.toNat)) (by omega) (k + limit.toNat) _ rfl (.inr rfl) (by omega)
      exact ⟨_, .more (ops := []) (hf.trans (congrArg some (Prod.ext rfl a2))) hw⟩
    · rw [if_neg hlt] at a2
      exact ⟨_, .last (hf.trans (congrArg some (Prod.ext rfl a2)))⟩

/-- **C19.** Following `nextCursor` terminates when nothing is created meanwhile. -/
theorem C19_terminates (ops : List (SOp D)) (hn : creates ops < 2 ^ 63) (limit : Int) (h0 : 0 < limit) (h1 : limit < 2 ^ 31) :
    ∃ ids, Walk limit (Store.init.run ops) none ids [] :=
  walk_exists h0 h1 (inv_of_run ops (by omega)) hn _ 0 _ rfl (.inl ⟨rfl, rfl⟩) (Nat.zero_le _)

/-- **C19.** Every page has at most `limit` tasks, and each shows the current state of that task. -/
theorem C19_page_contents (ops : List (SOp D)) (hn : creates ops < 2 ^ 63) (limit : Int) (h0 : 0 < limit) (h1 : limit < 2 ^ 31)
    (c : Option Bytes) (ts : List Task) (c' : Option Bytes) (k : Nat) (hk : k < 2 ^ 63) (hc : CurAt k c)
    (hf : fetch (Store.init.run ops) c limit = some (ts, c')) :
    ts.length ≤ limit.toNat ∧ ∀ t ∈ ts, (Store.init.run ops).getTask t.taskId = some t := by
  have h := inv_of_run ops (by omega)
  rw [fetch_eq _ hc hk h0 h1, Option.some.injEq, Prod.ext_iff] at hf
  obtain ⟨a1, _⟩ := list_ids (start := k) h hn (limit := limit.toNat) (by omega)
  constructor
  · rw [hf.1] at a1
    have := congrArg List.length a1
    simp at this
    omega
  · intro t ht
    have ht : t ∈ ((Store.init.run ops).list k (some limit.toNat)).1 := by rw [hf.1]; exact ht
    have : ∃ id, ((Store.init.run ops).getTask id = some t) := by
      unfold Store.list at ht
      split at ht
      · cases ht
      · obtain ⟨id, _, hid⟩ := List.mem_filterMap.1 ht
        exact ⟨id, hid⟩
    obtain ⟨id, hid⟩ := this
    obtain ⟨_, _, e, _⟩ := C17_id_stable ops [] (by rw [List.append_nil]; omega) id t hid
    rw [e]; exact hid

example : creates ([.create .toolCall none (lit "t"), .create .toolCall none (lit "u")] : List (SOp Empty)) < 2 ^ 63 ∧
    (fetch (Store.init.run ([.create .toolCall none (lit "t"), .create .toolCall none (lit "u")] : List (SOp Empty))) none 1).map (·.2) = some (some (lit "1")) := by
  decide +kernel

/-! ### C20 -/

section
variable [DblFmt D]

/-- **C20.** Serialising a task and parsing it back yields the same task. -/
theorem C20_task_roundtrip (t : Task) : parseTask (serTask t : JVal D) = t := serTask_parse t

/-- **C20.** The same for `CreateTaskResult` (task and any metadata) and for a page of tasks with its cursor. -/
theorem C20_results_roundtrip (t : Task) (m : Option (JVal D)) (ts : List Task) (c : Option Bytes) :
    parseCreate (serCreate t m) = (t, m) ∧ parseList (Tasks.serList ts c : JVal D) = (ts, c) := by
  refine ⟨?_, serList_parse ts c⟩
  have h := serTask_parse (D := D) t
  cases m with
  | none => exact Prod.ext h rfl
  | some m => exact Prod.ext h rfl

/-- **C20.** Also through the JSON text, for ttl and poll interval in 64-bit range. -/
theorem C20_task_text_roundtrip (t : Task) (h1 : ∀ i ∈ t.ttl, Int64OK i) (h2 : ∀ i ∈ t.pollInterval, Int64OK i) :
    ∃ v : JVal D, parseJson (ser (serTask t : JVal D)) = .ok v [] ∧ parseTask v = t := by
  refine ⟨serTask t, ?_, serTask_parse t⟩
  have hw : (serTask t : JVal D).Wire := by
    obtain ⟨a, b, c, d, e, f, g⟩ := t
    cases c <;> cases f <;> cases g <;>
      simp_all [serTask, optField, JVal.Wire, WireFields, PlainText, lit]
  have := C02_value_roundtrip_partial (serTask t : JVal D) hw [] (by simp [NumStop])
  rwa [List.append_nil] at this

example : (∀ i ∈ (⟨lit "task-1", lit "x\"y", some [], [], [], some (-5), none⟩ : Task).ttl, Int64OK i) ∧
    ∀ i ∈ (⟨lit "task-1", lit "x\"y", some [], [], [], some (-5), none⟩ : Task).pollInterval, Int64OK i := by
  simp [Int64OK]
end

end Verif
