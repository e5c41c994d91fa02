import Verif.Server.TaskCallProps

/-!
C65 (a task delivers what the synchronous call would have returned) and C66 (tool tasks end).
-/

set_option linter.unusedSectionVars false

namespace Verif

open Server Tasks Resource Validation
open Caps hiding Obj

variable {D H : Type}

/-! ### Specification -/

/-- `v'` is `v` with the related-task metadata of task `id` added, and nothing else changed. -/
def WithRelated (id : Bytes) (v v' : JVal D) : Prop :=
  ∃ m m' rel, v = .obj m ∧ v' = .obj m' ∧ (∀ k, k ≠ lit "_meta" → AMap.get m' k = AMap.get m k) ∧
    AMap.get m' (lit "_meta") = some (.obj rel) ∧
    AMap.get rel (lit "modelcontextprotocol.io/related-task") = some (.obj [(lit "taskId", .str id)]) ∧
    ∀ o, AMap.get m (lit "_meta") = some (.obj o) → ∀ k, k ≠ lit "modelcontextprotocol.io/related-task" → AMap.get rel k = AMap.get o k

/-- Two answers, the second delivered through task `id`, tell the same: results that differ in the related-task metadata only, or errors
with the same code and message. -/
def SameOutcome (id : Bytes) (a b : Out D) : Prop :=
  (∃ i j v v', a = .answer ⟨i, some v, none⟩ ∧ b = .answer ⟨j, some v', none⟩ ∧ WithRelated id v v') ∨
  (∃ i j e e', a = .answer ⟨i, none, some e⟩ ∧ b = .answer ⟨j, none, some e'⟩ ∧ e'.intAt (lit "code") = e.intAt (lit "code") ∧
    e'.strAt (lit "message") = e.strAt (lit "message"))

/-- The request for the outcome of task `id`. -/
def askResult (i : RpcId) (id : Bytes) : Request D := ⟨i, lit "tasks/result", some (.obj [(lit "taskId", .str id)])⟩

/-- A request to cancel task `id`. -/
def Cancels (id : Bytes) : SrvOp D H → Prop
  | .request _ req => req.method = lit "tasks/cancel" ∧ taskIdParam req.params = some id
  | _ => False

/-! ### Invariants -/

/-- Every step acts on the store as at most one store operation; workers are what they should be. -/
structure SrvGood (n : Nat) (s : Srv D H) : Prop where
  store : ∃ k, k ≤ n ∧ Inv k s.tasks
  nodup : (s.workers.map (·.1)).Nodup
  known : ∀ w ∈ s.workers, ∃ r, AMap.get s.tasks.records w.1 = some r
  kind : ∀ id r, AMap.get s.tasks.records id = some r → r.kind = .toolCall ∧ (r.payload = none → r.task.status = lit "working")

theorem srvGood_init (name : Bytes) : SrvGood 0 (Srv.init name : Srv D H) :=
  ⟨⟨0, Nat.le_refl _, inv_init⟩, List.nodup_nil, (fun w hw => by cases hw), (fun id r h => by cases h)⟩

theorem wait_blocked {s : Store D} {id : Bytes} (h : s.wait id = .blocked) : ∃ r, AMap.get s.records id = some r ∧ r.payload = none := by
  unfold Store.wait at h
  split at h
  · cases h
  · rename_i r hr
    split at h
    · rename_i hp; exact ⟨r, hr, hp⟩
    · cases h

theorem not_ended : ¬ (((none : Option (JVal D)).isSome || isTerminal (lit "working")) = true) := by
  show ¬ ((false || isTerminal (lit "working")) = true)
  decide

theorem known_step {k : Nat} {st : Store D} (h : Inv k st) (op : SOp D) {id : Bytes} (hx : ∃ r, AMap.get st.records id = some r) :
    ∃ r, AMap.get (st.step op).records id = some r := by
  obtain ⟨r, hr⟩ := hx
  obtain ⟨r', h', _⟩ := step_record h op hr
  exact ⟨r', h'⟩

/-- The part of `SrvGood` about records, after a terminal transition. -/
theorem kind_setTerminal {st : Store D} (h : ∀ id r, AMap.get st.records id = some r → r.kind = .toolCall ∧ (r.payload = none → r.task.status = lit "working"))
    (i stt : Bytes) (m : Option Bytes) (e : Bool) (p : JVal D) (rs : Bool) (now : Bytes) :
    ∀ id r, AMap.get (st.setTerminal i stt m e p rs now).2.2.records id = some r → r.kind = .toolCall ∧ (r.payload = none → r.task.status = lit "working") := by
  intro id r hr
  rcases setTerminal_cases st i stt m e p rs now with h1 | ⟨r0, hg, _, _, h1⟩
  · rw [h1] at hr; exact h id r hr
  · rw [h1] at hr
    simp only at hr
    rw [AMap.get_put] at hr
    split at hr
    · rename_i e; subst e
      cases hr
      exact ⟨(h _ r0 hg).1, fun h => by cases h⟩
    · exact h id r hr

theorem srvGood_terminal {n : Nat} {s s' : Srv D H} (h : SrvGood n s) (i stt : Bytes) (m : Option Bytes) (e : Bool) (p : JVal D) (rs : Bool) (now : Bytes)
    (ht : s'.tasks = (s.tasks.setTerminal i stt m e p rs now).2.2) (hw : s'.workers.Sublist s.workers) : SrvGood n s' := by
  obtain ⟨k, hk, hi⟩ := h.store
  refine ⟨⟨k, hk, by rw [ht]; exact inv_setTerminal hi _ _ _ _ _ _ _⟩, h.nodup.sublist (hw.map _), ?_, ?_⟩
  · intro w hwm
    rw [ht]
    obtain ⟨r, hr⟩ := h.known w (hw.subset hwm)
    rcases setTerminal_cases s.tasks i stt m e p rs now with h1 | ⟨r0, hg, _, _, h1⟩
    · rw [h1]; exact ⟨r, hr⟩
    · rw [h1]; simp only
      rw [AMap.get_put]
      split
      · exact ⟨_, rfl⟩
      · exact ⟨r, hr⟩
  · rw [ht]; exact kind_setTerminal h.kind _ _ _ _ _ _ _

theorem srvGood_same {n : Nat} {s s' : Srv D H} (h : SrvGood n s) (ht : s'.tasks = s.tasks) (hw : s'.workers.Sublist s.workers) : SrvGood n s' :=
  ⟨by rw [ht]; exact h.store, h.nodup.sublist (hw.map _), fun w hwm => by rw [ht]; exact h.known w (hw.subset hwm), by rw [ht]; exact h.kind⟩

theorem srvGood_mono {n m : Nat} {s : Srv D H} (h : SrvGood n s) (hnm : n ≤ m) : SrvGood m s :=
  ⟨by obtain ⟨k, hk, hi⟩ := h.store; exact ⟨k, by omega, hi⟩, h.nodup, h.known, h.kind⟩

/-- What the end of a worker does. -/
theorem work_cases (env : Env D H) (s : Srv D H) (k : Nat) :
    (s.work env k).tasks = s.tasks ∧ (s.work env k).workers.Sublist s.workers ∨
    ∃ id h args st m e p, s.workers[k]? = some (id, h, args) ∧ (s.work env k).workers = s.workers.eraseIdx k ∧
      (s.work env k).tasks = (s.tasks.setTerminal id st m e p false env.now).2.2 := by
  unfold Srv.work
  split
  · exact .inl ⟨rfl, List.Sublist.refl _⟩
  · rename_i id h args hw
    simp only
    split
    · exact .inl ⟨rfl, List.Sublist.refl _⟩
    · exact .inl ⟨rfl, List.eraseIdx_sublist _ _⟩
    · exact .inr ⟨id, h, args, _, _, _, _, hw, rfl, rfl⟩
    · split
      · exact .inr ⟨id, h, args, _, _, _, _, hw, rfl, rfl⟩
      · exact .inr ⟨id, h, args, _, _, _, _, hw, rfl, rfl⟩

theorem srvGood_step {n : Nat} {s : Srv D H} (h : SrvGood n s) (hn : n + 2 < 2 ^ 64) (op : SrvOp D H) : SrvGood (n + 1) (s.step op) := by
  cases op with
  | register c op => exact srvGood_mono (srvGood_same h rfl (List.Sublist.refl _)) (by omega)
  | setStrict b => exact srvGood_mono (srvGood_same h rfl (List.Sublist.refl _)) (by omega)
  | setSampling x => exact srvGood_mono (srvGood_same h rfl (List.Sublist.refl _)) (by omega)
  | setCompletion x => exact srvGood_mono (srvGood_same h rfl (List.Sublist.refl _)) (by omega)
  | worker env k =>
    refine srvGood_mono (n := n) ?_ (by omega)
    show SrvGood n (s.work env k)
    rcases work_cases env s k with ⟨h1, h2⟩ | ⟨id, h', args, st, m, e, p, _, hw, ht⟩
    · exact srvGood_same h h1 h2
    · exact srvGood_terminal h _ _ _ _ _ _ _ ht (by rw [hw]; exact List.eraseIdx_sublist _ _)
  | request env req =>
    show SrvGood (n + 1) (dispatch env s req).2
    by_cases hm : req.method = lit "tools/call"
    · rw [dispatch_tools env s req hm]
      rcases toolsCall_cases env s req with h1 | ⟨name, hh, _, _, _, _, _, _, he⟩ | ⟨name, hh, ttl, _, _, _, _, _, _, he⟩
      · simp only; rw [h1]; exact srvGood_mono h (by omega)
      · simp only; rw [he]; exact srvGood_mono (srvGood_same h rfl (List.Sublist.refl _)) (by omega)
      · simp only; rw [he]
        obtain ⟨k, hk, hi⟩ := h.store
        have hf := fresh_id hi
        refine ⟨⟨k + 1, by omega, inv_create hi (by omega) _ _ _⟩, ?_, ?_, ?_⟩
        · simp only [List.map_append, List.map_cons, List.map_nil]
          rw [List.nodup_append]
          refine ⟨h.nodup, by simp, ?_⟩
          intro a ha b hb e
          rw [List.mem_singleton] at hb
          subst hb e
          obtain ⟨w, hw, hwe⟩ := List.mem_map.1 ha
          obtain ⟨r, hr⟩ := h.known w hw
          rw [hwe] at hr
          rw [show (s.tasks.create .toolCall ttl env.now).1.taskId = lit "task-" ++ natDec s.tasks.nextId from rfl, hf] at hr
          cases hr
        · intro w hw
          simp only at hw ⊢
          rcases List.mem_append.1 hw with hw | hw
          · exact known_step hi (.create .toolCall ttl env.now) (h.known w hw)
          · rw [List.mem_singleton] at hw
            subst hw
            exact ⟨_, AMap.get_put_self _ _ _⟩
        · intro id r hr
          change AMap.get (AMap.put s.tasks.records (lit "task-" ++ natDec s.tasks.nextId) _) id = some r at hr
          rw [AMap.get_put] at hr
          split at hr
          · cases hr; exact ⟨rfl, fun _ => rfl⟩
          · exact h.kind id r hr
    · have hq := dispatch_quiet env s req hm
      rcases hq.tasks with h1 | ⟨_, id, p, now, _, h1⟩
      · exact srvGood_mono (srvGood_same h h1 (by rw [hq.workers]; exact List.Sublist.refl _)) (by omega)
      · exact srvGood_mono (srvGood_terminal h _ _ _ _ _ _ _ h1 (by rw [hq.workers]; exact List.Sublist.refl _)) (by omega)

theorem srvGood_run {ops : List (SrvOp D H)} : ∀ {n : Nat} {s : Srv D H}, SrvGood n s → n + ops.length + 1 < 2 ^ 64 → SrvGood (n + ops.length) (s.run ops) := by
  induction ops with
  | nil => intro n s h _; exact h
  | cons op ops ih =>
    intro n s h hn
    simp only [List.length_cons] at hn ⊢
    have := ih (srvGood_step h (by omega) op) (by omega)
    rw [show n + (ops.length + 1) = n + 1 + ops.length by omega]
    exact this

theorem srvGood_reach (name : Bytes) (ops : List (SrvOp D H)) (h : ops.length + 1 < 2 ^ 64) : SrvGood ops.length ((Srv.init name : Srv D H).run ops) := by
  have := srvGood_run (ops := ops) (srvGood_init (D := D) (H := H) name) (by omega)
  rwa [Nat.zero_add] at this

/-- Every step is at most one operation of the task store. -/
theorem step_store (s : Srv D H) (op : SrvOp D H) : (s.step op).tasks = s.tasks ∨ ∃ o, (s.step op).tasks = s.tasks.step o := by
  cases op with
  | register c op => exact .inl rfl
  | setStrict b => exact .inl rfl
  | setSampling x => exact .inl rfl
  | setCompletion x => exact .inl rfl
  | worker env k =>
    rcases work_cases env s k with ⟨h1, _⟩ | ⟨id, h', args, st, m, e, p, _, _, ht⟩
    · exact .inl h1
    · exact .inr ⟨.complete id st m e p env.now, ht⟩
  | request env req =>
    show (dispatch env s req).2.tasks = _ ∨ ∃ o, (dispatch env s req).2.tasks = _
    by_cases hm : req.method = lit "tools/call"
    · rw [dispatch_tools env s req hm]
      rcases toolsCall_cases env s req with h1 | ⟨name, hh, _, _, _, _, _, _, he⟩ | ⟨name, hh, ttl, _, _, _, _, _, _, he⟩
      · exact .inl (by simp only; rw [h1])
      · exact .inl (by simp only; rw [he])
      · exact .inr ⟨.create .toolCall ttl env.now, by simp only; rw [he]; rfl⟩
    · rcases (dispatch_quiet env s req hm).tasks with h1 | ⟨_, id, p, now, _, h1⟩
      · exact .inl h1
      · exact .inr ⟨.cancel id p now, h1⟩

/-- A record with an outcome never changes again. -/
theorem finished_run {ops : List (SrvOp D H)} : ∀ {n : Nat} {s : Srv D H}, SrvGood n s → n + ops.length + 1 < 2 ^ 64 → ∀ {id r},
    AMap.get s.tasks.records id = some r → r.payload.isSome → AMap.get (s.run ops).tasks.records id = some r := by
  induction ops with
  | nil => intro n s _ _ id r h _; exact h
  | cons op ops ih =>
    intro n s h hn id r hr hp
    simp only [List.length_cons] at hn
    refine ih (srvGood_step h (by omega) op) (by omega) ?_ hp
    obtain ⟨k, _, hi⟩ := h.store
    rcases step_store s op with h1 | ⟨o, h1⟩
    · rw [h1]; exact hr
    · rw [h1]
      obtain ⟨r', h2, _, _, _, _, h3⟩ := step_record hi o hr
      rw [h2, h3 (.inl hp)]

/-! ### C65 -/

theorem attachResult_spec (id : Bytes) (m : Obj D) : WithRelated id (.obj m) (attachResult (.obj m) id) := by
  refine ⟨m, _, _, rfl, rfl, ?_, AMap.get_put_self _ _ _, ?_, ?_⟩
  · intro k hk; exact AMap.get_put_ne _ _ hk
  · exact AMap.get_put_self _ _ _
  · intro o ho k hk
    rw [show lit "modelcontextprotocol.io/related-task" = relatedKey from rfl] at hk
    rw [AMap.get_put_ne _ _ hk]
    simp only [subObj, ho]

theorem attachResult_valid (id : Bytes) (v : JVal D) (h : validateCallToolResult v = true) : validateCallToolResult (attachResult v id) = true := by
  cases v <;> try (cases h; done)
  rename_i m
  simp only [attachResult, validateCallToolResult, need, isOptionalBoolField, Bool.and_eq_true] at h ⊢
  rw [AMap.get_put_ne _ _ (by decide), AMap.get_put_ne _ _ (by decide)]
  exact h

theorem attachError_spec (id : Bytes) (m : Obj D) :
    (attachError (.obj m) id).intAt (lit "code") = (JVal.obj m).intAt (lit "code") ∧
    (attachError (.obj m) id).strAt (lit "message") = (JVal.obj m).strAt (lit "message") := by
  simp only [attachError, JVal.intAt, JVal.strAt, JVal.get?]
  rw [AMap.get_put_ne _ _ (by decide), AMap.get_put_ne _ _ (by decide)]
  exact ⟨rfl, rfl⟩

theorem askResult_id (i : RpcId) (id : Bytes) : taskIdParam (askResult i id : Request D).params = some id := rfl

/-- **C65.** Whatever else happens before and after: once the worker of a task ends, asking for the result of the task (unless it was
cancelled before) gives what calling the tool synchronously would have given, with the related-task metadata added, provided the strict
flag is the same in the end. -/
theorem C65_task_delivers (name : Bytes) (ops more : List (SrvOp D H)) (hn : ops.length + more.length + 2 < 2 ^ 64) (env env' : Env D H)
    (k : Nat) (id : Bytes) (h : H) (args : JVal D) (i j : RpcId) :
    let s := (Srv.init name : Srv D H).run ops
    let s' := (s.work env k).run more
    s.workers[k]? = some (id, h, args) → s.tasks.wait id = .blocked → s'.strict = s.strict →
    ((∃ r, env.tool h args = .ret r ∧ env.cancelled1 = false) ∨ ∃ w, env.tool h args = .std w) →
    SameOutcome id (toolSync env s.strict i h args) (dispatch env' s' (askResult j id)).1 := by
  intro s s' hw hb hst hend
  have hg : SrvGood ops.length s := srvGood_reach name ops (by omega)
  have hg1 : SrvGood (ops.length + 1) (s.work env k) := srvGood_step hg (by omega) (.worker env k)
  rw [dispatch_result _ _ _ rfl]
  simp only
  -- the record of the task
  obtain ⟨r0, hr0, hp0⟩ := wait_blocked hb
  obtain ⟨hk0, hs0⟩ := hg.kind id r0 hr0
  have hnt : ¬ ((r0.payload.isSome || isTerminal r0.task.status) = true) := by rw [hp0, hs0 hp0]; exact not_ended
  have settle : ∀ st m e p, (s.work env k).tasks = (s.tasks.complete id st m e p env.now).2.2 →
      ∃ r, AMap.get s'.tasks.records id = some r ∧ r.kind = .toolCall ∧ r.isError = e ∧ r.payload = some p := by
    intro st m e p ht
    have h1 : AMap.get (s.work env k).tasks.records id = some ⟨{ r0.task with status := st, statusMessage := m, lastUpdatedAt := env.now }, r0.kind, r0.stopped || false, e, some p⟩ := by
      rw [ht]
      simp only [Store.complete, Store.setTerminal, hr0, if_neg hnt]
      exact AMap.get_put_self _ _ _
    exact ⟨_, finished_run (ops := more) hg1 (by omega) h1 rfl, hk0, rfl, rfl⟩
  have answer : ∀ e p, (∃ r, AMap.get s'.tasks.records id = some r ∧ r.kind = .toolCall ∧ r.isError = e ∧ r.payload = some p) →
      tasksResult s' (askResult j id) = if e then .answer ⟨j, none, some (attachError p id)⟩
        else checked s'.strict validateCallToolResult (lit "Invalid task result shape") j (attachResult p id) := by
    rintro e p ⟨r, hr, h1, h2, h3⟩
    unfold tasksResult
    rw [askResult_id]
    simp only [Store.wait, hr, h2, h3]
    cases e
    · simp only [h1]; rfl
    · rfl
  rcases hend with ⟨r, hr, hc⟩ | ⟨w, hr⟩
  · have hwork : (s.work env k).tasks = if s.strict && !validateCallToolResult (toolResultJson r) then
          (s.tasks.complete id (lit "failed") (some (lit "Invalid tool result shape")) true
            (mkErrorObj Code.internalError (lit "Invalid tool result shape") none) env.now).2.2
        else (s.tasks.complete id (if r.isError then lit "failed" else lit "completed") none false (toolResultJson r) env.now).2.2 := by
      unfold Srv.work
      rw [hw]
      simp only [hr]
      split <;> rfl
    unfold toolSync
    rw [hr]
    simp only [hc, Bool.false_eq_true, if_false]
    by_cases hv : (s.strict && !validateCallToolResult (toolResultJson r)) = true
    · rw [if_pos hv] at hwork
      rw [answer true _ (settle _ _ _ _ hwork)]
      refine .inr ⟨i, j, _, _, ?_, rfl, (attachError_spec _ _).1, (attachError_spec _ _).2⟩
      unfold checked
      rw [if_pos hv]; rfl
    · rw [if_neg hv] at hwork
      rw [answer false _ (settle _ _ _ _ hwork)]
      refine .inl ⟨i, j, toolResultJson r, attachResult (toolResultJson r) id, ?_, ?_, attachResult_spec id _⟩
      · unfold checked
        rw [if_neg hv]; rfl
      · unfold checked
        rw [if_neg (by decide), if_neg]
        · rfl
        · rw [hst]
          intro hx
          apply hv
          simp only [Bool.and_eq_true, Bool.not_eq_true'] at hx ⊢
          refine ⟨hx.1, ?_⟩
          cases hz : validateCallToolResult (toolResultJson r) with
          | false => rfl
          | true => have := attachResult_valid id _ hz; rw [this] at hx; exact absurd hx.2 (by decide)
  · have hwork : (s.work env k).tasks = (s.tasks.complete id (lit "failed") (some w) true (mkErrorObj Code.internalError w none) env.now).2.2 := by
      unfold Srv.work
      rw [hw]
      simp only [hr]
    unfold toolSync
    rw [hr]
    rw [answer true _ (settle _ _ _ _ hwork)]
    exact .inr ⟨i, j, _, _, rfl, rfl, (attachError_spec _ _).1, (attachError_spec _ _).2⟩

/-- The server of the example in C35 after the task call. -/
example : ((optSrv : Srv Empty Nat).run [.request calmEnv taskCall]).workers[0]? = some (lit "task-1", 7, .null) ∧
    (((optSrv : Srv Empty Nat).run [.request calmEnv taskCall]).tasks.wait (lit "task-1") matches .blocked) ∧
    (calmEnv : Env Empty Nat).tool 7 .null = .ret ⟨[], false, none, none⟩ ∧ (calmEnv : Env Empty Nat).cancelled1 = false := by
  have : lit "task-" ++ natDec 1 = lit "task-1" := by decide
  refine ⟨?_, ?_, rfl, rfl⟩
  · show some (lit "task-" ++ natDec 1, 7, JVal.null) = _
    rw [this]
  · decide +kernel

/-! ### C66 -/

/-- **C66.** A tool task whose handler throws something other than a `std::exception` never ends: unless it is cancelled, whatever
happens later, a request for its result is never answered. -/
theorem C66_lost_task_counterexample (name : Bytes) (ops more : List (SrvOp D H)) (hn : ops.length + more.length + 2 < 2 ^ 64) (env env' : Env D H)
    (k : Nat) (id : Bytes) (h : H) (args : JVal D) (j : RpcId) (hc : ∀ op ∈ more, ¬ Cancels id op) :
    let s := (Srv.init name : Srv D H).run ops
    s.workers[k]? = some (id, h, args) → s.tasks.wait id = .blocked → env.tool h args = .other →
    (dispatch env' ((s.work env k).run more) (askResult j id)).1 = .blocked := by
  intro s hw hb he
  have hg : SrvGood ops.length s := srvGood_reach name ops (by omega)
  have hg1 : SrvGood (ops.length + 1) (s.work env k) := srvGood_step hg (by omega) (.worker env k)
  have hwork : s.work env k = { s with workers := s.workers.eraseIdx k } := by
    unfold Srv.work; rw [hw]; simp only [he]
  have hgone : ∀ w ∈ (s.work env k).workers, w.1 ≠ id := by
    rw [hwork]
    intro w hwm e
    have hnd := hg.nodup
    simp only at hwm
    obtain ⟨q, hq, hqe⟩ := List.mem_iff_getElem.1 hwm
    rw [List.getElem_eraseIdx] at hqe
    obtain ⟨hk, hke⟩ := List.getElem?_eq_some_iff.1 hw
    have hlen : (s.workers.eraseIdx k).length = s.workers.length - 1 := List.length_eraseIdx_of_lt hk
    have inj : ∀ a b (ha : a < s.workers.length) (hb : b < s.workers.length), s.workers[a].1 = s.workers[b].1 → a = b := by
      intro a b ha hb hab
      rw [List.nodup_iff_pairwise_ne, List.pairwise_iff_getElem] at hnd
      rcases Nat.lt_trichotomy a b with h | h | h
      · exact absurd (by rw [List.getElem_map, List.getElem_map]; exact hab) (hnd a b (by simpa using ha) (by simpa using hb) h)
      · exact h
      · exact absurd (by rw [List.getElem_map, List.getElem_map]; exact hab.symm) (hnd b a (by simpa using hb) (by simpa using ha) h)
    split at hqe
    · have := inj q k (by omega) hk (by rw [hqe, hke, e])
      omega
    · have := inj (q + 1) k (by omega) hk (by rw [hqe, hke, e])
      omega
  have hwait : (s.work env k).tasks.wait id = .blocked := by rw [hwork]; exact hb
  have key : ∀ (l : List (SrvOp D H)) (n : Nat) (t : Srv D H), SrvGood n t → n + l.length + 1 < 2 ^ 64 → (∀ w ∈ t.workers, w.1 ≠ id) → t.tasks.wait id = .blocked →
      (∀ op ∈ l, ¬ Cancels id op) → (t.run l).tasks.wait id = .blocked := by
    intro l
    induction l with
    | nil => intro n t _ _ _ h _; exact h
    | cons op l ih =>
      intro n t hgt hn hgone hwait hc
      simp only [List.length_cons] at hn
      have hgt' := srvGood_step hgt (by omega) op
      obtain ⟨q, hq, hi⟩ := hgt.store
      have other : ∀ i st m e p rs now, i ≠ id → (t.tasks.setTerminal i st m e p rs now).2.2.wait id = .blocked := by
        intro i st m e p rs now hne
        rcases setTerminal_cases t.tasks i st m e p rs now with h1 | ⟨r0, _, _, _, h1⟩
        · rw [h1]; exact hwait
        · rw [h1]
          unfold Store.wait at hwait ⊢
          simp only
          rw [AMap.get_put_ne _ _ (Ne.symm hne)]; exact hwait
      have hstep : (∀ w ∈ (t.step op).workers, w.1 ≠ id) ∧ (t.step op).tasks.wait id = .blocked := by
        cases op with
        | register c op => exact ⟨hgone, hwait⟩
        | setStrict b => exact ⟨hgone, hwait⟩
        | setSampling x => exact ⟨hgone, hwait⟩
        | setCompletion x => exact ⟨hgone, hwait⟩
        | worker env k =>
          show (∀ w ∈ (t.work env k).workers, _) ∧ (t.work env k).tasks.wait id = _
          rcases work_cases env t k with ⟨h1, h2⟩ | ⟨i, h', args, st, m, e, p, hk, hw, ht⟩
          · exact ⟨fun w hw => hgone w (h2.subset hw), by rw [h1]; exact hwait⟩
          · refine ⟨fun w hwm => hgone w ?_, ?_⟩
            · rw [hw] at hwm; exact (List.eraseIdx_sublist _ _).subset hwm
            · rw [ht]; exact other _ _ _ _ _ _ _ (hgone _ (List.mem_of_getElem? hk))
        | request env req =>
          show (∀ w ∈ (dispatch env t req).2.workers, _) ∧ (dispatch env t req).2.tasks.wait id = _
          by_cases hm : req.method = lit "tools/call"
          · rw [dispatch_tools env t req hm]
            rcases toolsCall_cases env t req with h1 | ⟨name, hh, _, _, _, _, _, _, he⟩ | ⟨name, hh, ttl, _, _, _, _, _, _, he⟩
            · simp only; rw [h1]; exact ⟨hgone, hwait⟩
            · simp only; rw [he]; exact ⟨hgone, hwait⟩
            · simp only; rw [he]
              have hne : lit "task-" ++ natDec t.tasks.nextId ≠ id := by
                intro e
                have hf := fresh_id hi
                rw [e] at hf
                unfold Store.wait at hwait
                rw [hf] at hwait; cases hwait
              refine ⟨?_, ?_⟩
              · intro w hwm
                simp only at hwm
                rcases List.mem_append.1 hwm with hwm | hwm
                · exact hgone w hwm
                · rw [List.mem_singleton] at hwm; subst hwm; exact hne
              · unfold Store.wait at hwait ⊢
                show (match AMap.get (AMap.put t.tasks.records (lit "task-" ++ natDec t.tasks.nextId) _) id with | none => _ | some r => _) = _
                rw [AMap.get_put_ne _ _ (Ne.symm hne)]; exact hwait
          · have hq := dispatch_quiet env t req hm
            rw [hq.workers]
            refine ⟨hgone, ?_⟩
            rcases hq.tasks with h1 | ⟨hcm, i, p, now, hid, h1⟩
            · rw [h1]; exact hwait
            · rw [h1]
              refine other _ _ _ _ _ _ _ ?_
              intro e; subst e
              exact hc _ (List.mem_cons_self ..) ⟨hcm, hid⟩
      exact ih (n + 1) (t.step op) hgt' (by omega) hstep.1 hstep.2 (fun o ho => hc o (List.mem_cons_of_mem _ ho))
  rw [dispatch_result _ _ _ rfl]
  simp only
  unfold tasksResult
  rw [askResult_id]
  simp only
  rw [key more (ops.length + 1) _ hg1 (by omega) hgone hwait hc]

/-- Every tool call handed to a worker ends, at the latest, with that worker: returning or throwing a standard exception. -/
def CivilOp : SrvOp D H → Prop
  | .worker env _ => ∀ h a, env.tool h a ≠ .other
  | _ => True

/-- **C66** (partial: handlers must not throw other exceptions). In every reachable state, every task without an outcome has a worker
that is still at work on it; so it ends when that worker does. -/
theorem C66_tasks_have_workers_partial (name : Bytes) (ops : List (SrvOp D H)) (hn : ops.length + 1 < 2 ^ 64) (hc : ∀ op ∈ ops, CivilOp op) (id : Bytes) :
    let s := (Srv.init name : Srv D H).run ops
    s.tasks.wait id = .blocked → ∃ k h args, s.workers[k]? = some (id, h, args) ∧
      ∀ env, Tame (env.tool h args) → ∃ e p, (s.work env k).tasks.wait id = .got e p := by
  intro s hb
  have hg : SrvGood ops.length s := srvGood_reach name ops hn
  have key : ∀ (r : List (SrvOp D H)), r.length + 1 < 2 ^ 64 → (∀ op ∈ r, CivilOp op) → ∀ id, ((Srv.init name : Srv D H).run r.reverse).tasks.wait id = .blocked →
      ∃ w ∈ ((Srv.init name : Srv D H).run r.reverse).workers, w.1 = id := by
    intro r
    induction r with
    | nil => intro _ _ id h; cases h
    | cons op r ih =>
      intro hn hc id h
      simp only [List.length_cons] at hn
      rw [List.reverse_cons, srv_run_append] at h ⊢
      have ih' := ih (by omega) (fun o ho => hc o (List.mem_cons_of_mem _ ho))
      have hgt : SrvGood r.length ((Srv.init name : Srv D H).run r.reverse) := by
        have := srvGood_reach (D := D) (H := H) name r.reverse (by rw [List.length_reverse]; omega)
        rwa [List.length_reverse] at this
      have hcop := hc op (List.mem_cons_self ..)
      generalize (Srv.init name : Srv D H).run r.reverse = t at h ih' hgt ⊢
      change (t.step op).tasks.wait id = .blocked at h
      show ∃ w ∈ (t.step op).workers, w.1 = id
      -- a terminal transition leaves no more tasks waiting than before
      have before : ∀ i st m e p rs now, (t.tasks.setTerminal i st m e p rs now).2.2.wait id = .blocked → t.tasks.wait id = .blocked ∧
          (i = id → False) := by
        intro i st m e p rs now hx
        rcases setTerminal_cases t.tasks i st m e p rs now with h1 | ⟨r0, hg0, hp0, _, h1⟩
        · rw [h1] at hx
          refine ⟨hx, ?_⟩
          intro e; subst e
          unfold Store.wait at hx
          cases hy : AMap.get t.tasks.records i with
          | none => rw [hy] at hx; cases hx
          | some r1 =>
            rw [hy] at hx
            cases hz : r1.payload with
            | some q => simp only [hz] at hx; cases hx
            | none =>
              have hs1 := (hgt.kind i r1 hy).2 hz
              unfold Store.setTerminal at h1
              simp only [hy, hz, hs1] at h1
              rw [if_neg not_ended] at h1
              simp only at h1
              have h3 : AMap.get t.tasks.records i = some ⟨{ r1.task with status := st, statusMessage := m, lastUpdatedAt := now }, r1.kind, r1.stopped || rs, e, some p⟩ := by
                rw [← h1]; simp only; exact AMap.get_put_self _ _ _
              rw [hy] at h3
              have h4 := congrArg (Option.map Record.payload) h3
              simp [hz] at h4
        · rw [h1] at hx
          by_cases e : i = id
          · subst e
            unfold Store.wait at hx
            simp only at hx
            rw [AMap.get_put_self] at hx
            simp only at hx
            cases hx
          · refine ⟨?_, e⟩
            unfold Store.wait at hx ⊢
            simp only at hx
            rw [AMap.get_put_ne _ _ (Ne.symm e)] at hx; exact hx
      cases op with
      | register c op => exact ih' id h
      | setStrict b => exact ih' id h
      | setSampling x => exact ih' id h
      | setCompletion x => exact ih' id h
      | worker env k =>
        change (t.work env k).tasks.wait id = .blocked at h
        show ∃ w ∈ (t.work env k).workers, w.1 = id
        unfold Srv.work at h ⊢
        cases hk : t.workers[k]? with
        | none => rw [hk] at h; exact ih' id h
        | some w0 =>
          obtain ⟨i, h0, a0⟩ := w0
          rw [hk] at h
          simp only at h ⊢
          have erased : ∀ w ∈ t.workers, w.1 = id → (i = id → False) → ∃ w' ∈ t.workers.eraseIdx k, w'.1 = id := by
            intro w hw hwe hne
            refine ⟨w, ?_, hwe⟩
            obtain ⟨q, hq, hqe⟩ := List.mem_iff_getElem.1 hw
            have hqk : q ≠ k := by
              intro e; subst e
              rw [List.getElem?_eq_getElem hq, hqe] at hk
              apply hne; rw [← hwe]; cases hk; rfl
            exact List.mem_eraseIdx_iff_getElem.2 ⟨q, hq, hqk, hqe⟩
          cases he : env.tool h0 a0 with
          | never => rw [he] at h; exact ih' id h
          | other => exact absurd he (hcop h0 a0)
          | std e =>
            rw [he] at h
            obtain ⟨h1, h2⟩ := before _ _ _ _ _ _ _ h
            obtain ⟨w, hw, hwe⟩ := ih' id h1
            exact erased w hw hwe h2
          | ret v =>
            rw [he] at h
            simp only at h ⊢
            split at h
            · rename_i hv
              rw [if_pos hv]
              obtain ⟨h1, h2⟩ := before _ _ _ _ _ _ _ h
              obtain ⟨w, hw, hwe⟩ := ih' id h1
              exact erased w hw hwe h2
            · rename_i hv
              rw [if_neg hv]
              obtain ⟨h1, h2⟩ := before _ _ _ _ _ _ _ h
              obtain ⟨w, hw, hwe⟩ := ih' id h1
              exact erased w hw hwe h2
      | request env req =>
        change (dispatch env t req).2.tasks.wait id = .blocked at h
        show ∃ w ∈ (dispatch env t req).2.workers, w.1 = id
        by_cases hm : req.method = lit "tools/call"
        · rw [dispatch_tools env t req hm] at h ⊢
          rcases toolsCall_cases env t req with h1 | ⟨name, hh, _, _, _, _, _, _, he⟩ | ⟨name, hh, ttl, _, _, _, _, _, _, he⟩
          · simp only [h1] at h ⊢; exact ih' id h
          · simp only [he] at h ⊢; exact ih' id h
          · simp only [he] at h ⊢
            by_cases e : lit "task-" ++ natDec t.tasks.nextId = id
            · exact ⟨_, List.mem_append_right _ (List.mem_singleton.2 rfl), e⟩
            · have : t.tasks.wait id = .blocked := by
                unfold Store.wait at h ⊢
                change (match AMap.get (AMap.put t.tasks.records (lit "task-" ++ natDec t.tasks.nextId) _) id with | none => _ | some r => _) = _ at h
                rw [AMap.get_put_ne _ _ (Ne.symm e)] at h; exact h
              obtain ⟨w, hw, hwe⟩ := ih' id this
              exact ⟨w, List.mem_append_left _ hw, hwe⟩
        · have hq := dispatch_quiet env t req hm
          rw [hq.workers]
          rcases hq.tasks with h1 | ⟨_, i, p, now, _, h1⟩
          · rw [h1] at h; exact ih' id h
          · rw [h1] at h
            exact ih' id (before _ _ _ _ _ _ _ h).1
  have := key ops.reverse (by rw [List.length_reverse]; exact hn) (fun o ho => hc o (List.mem_reverse.1 ho)) id
  rw [List.reverse_reverse] at this
  obtain ⟨⟨i, h, args⟩, hw, hwe⟩ := this hb
  simp only at hwe
  subst hwe
  obtain ⟨k, hk, hke⟩ := List.mem_iff_getElem.1 hw
  have hk' : s.workers[k]? = some (i, h, args) := by rw [List.getElem?_eq_getElem hk, hke]
  refine ⟨k, h, args, hk', ?_⟩
  intro env ht
  obtain ⟨r0, hr0, hp0⟩ := wait_blocked hb
  have hs0 := (hg.kind i r0 hr0).2 hp0
  have eff : ∀ st m e p, ((s.tasks.complete i st m e p env.now).2.2.wait i) = .got e p := fun st m e p =>
    (C18_transition_effect s.tasks i r0 hr0 ⟨hp0, by rw [hs0]; decide⟩ st m e p env.now).1.2.2
  unfold Srv.work
  rw [hk']
  simp only
  rcases ht with ⟨a, ha⟩ | ⟨w, ha⟩
  · rw [ha]
    simp only
    split
    · exact ⟨_, _, eff _ _ _ _⟩
    · exact ⟨_, _, eff _ _ _ _⟩
  · rw [ha]
    exact ⟨_, _, eff _ _ _ _⟩

example : ∀ op ∈ ([.request calmEnv taskCall, .worker calmEnv 0] : List (SrvOp Empty Nat)), CivilOp op := by
  intro op h
  simp only [List.mem_cons, List.not_mem_nil, or_false] at h
  rcases h with rfl | rfl
  · trivial
  · intro h a e; cases e

end Verif
