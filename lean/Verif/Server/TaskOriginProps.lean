import Verif.Server.TaskFlowProps

/-!
C131: where the outcome of a task comes from.
-/

set_option linter.unusedSectionVars false

namespace Verif

open Server Tasks Resource Validation
open Caps hiding Obj

variable {D H : Type}

/-! ### Specification -/

/-- The server before step `p` of an execution. -/
def srvAt (name : Bytes) (ops : List (SrvOp D H)) (p : Nat) : Srv D H := (Srv.init name).run (ops.take p)

/-- Step `p` of the execution is a request that called tool `tool` with arguments `args`, when `h` was the handler of that tool, and with it task `id` came into being. -/
def StartedAt (name : Bytes) (ops : List (SrvOp D H)) (p : Nat) (id tool : Bytes) (args : JVal D) (h : H) : Prop :=
  ∃ env req, ops[p]? = some (.request env req) ∧ Calls req tool args ∧ AsksTask req ∧ AMap.get (srvAt name ops p).reg.toolHandlers tool = some h ∧
    AMap.get (srvAt name ops p).tasks.records id = none ∧ (AMap.get (srvAt name ops (p + 1)).tasks.records id).isSome = true

/-- With step `k` of the execution a worker that ran handler `h` on `args` for task `id` came to its end, and the handler returned `r`. -/
def EndedAt (name : Bytes) (ops : List (SrvOp D H)) (k : Nat) (id : Bytes) (args : JVal D) (h : H) (r : ToolRes D) : Prop :=
  ∃ env n, ops[k]? = some (.worker env n) ∧ (srvAt name ops k).workers[n]? = some (id, h, args) ∧ env.tool h args = .ret r

/-- The error with this text. -/
def errorText (text : Bytes) : JVal D := .obj [(lit "code", .int (-32603)), (lit "message", .str text)]

/-- With step `k` of the execution task `id` was cancelled, or its worker came to its end because the handler had thrown, or had returned what the strict mode does not take; and `v`
tells which. -/
def FailedAt (name : Bytes) (ops : List (SrvOp D H)) (k : Nat) (id : Bytes) (v : JVal D) : Prop :=
  (∃ op, ops[k]? = some op ∧ Cancels id op ∧ v = errorText (lit "Cancelled")) ∨
  ∃ env n h args, ops[k]? = some (.worker env n) ∧ (srvAt name ops k).workers[n]? = some (id, h, args) ∧
    ((∃ e, env.tool h args = .std e ∧ v = errorText e) ∨
      ∃ r, env.tool h args = .ret r ∧ (srvAt name ops k).strict = true ∧ validateCallToolResult (toolResultJson r) = false ∧
        v = errorText (lit "Invalid tool result shape"))

/-! ### Places in longer executions -/

theorem srvAt_more (name : Bytes) (ops : List (SrvOp D H)) (op : SrvOp D H) (p : Nat) (h : p ≤ ops.length) : srvAt name (ops ++ [op]) p = srvAt name ops p := by
  unfold srvAt
  rw [List.take_append_of_le_length h]

theorem srvAt_end (name : Bytes) (ops : List (SrvOp D H)) : srvAt name ops ops.length = (Srv.init name).run ops := by
  unfold srvAt
  rw [List.take_length]

theorem srvAt_succ {name : Bytes} {ops : List (SrvOp D H)} {p : Nat} {op : SrvOp D H} (h : ops[p]? = some op) :
    srvAt name ops (p + 1) = (srvAt name ops p).step op := by
  unfold srvAt
  rw [List.take_add_one, h, srv_run_append]
  rfl

theorem get_more {A : Type} {l : List A} {a b : A} {p : Nat} (h : l[p]? = some a) : (l ++ [b])[p]? = some a := by
  rw [List.getElem?_append_left (List.getElem?_eq_some_iff.1 h).1]; exact h

theorem StartedAt.more {name : Bytes} {ops : List (SrvOp D H)} {p : Nat} {id tool : Bytes} {args : JVal D} {h : H} (hs : StartedAt name ops p id tool args h)
    (op : SrvOp D H) : StartedAt name (ops ++ [op]) p id tool args h := by
  obtain ⟨env, req, h1, h2⟩ := hs
  have hl : p < ops.length := (List.getElem?_eq_some_iff.1 h1).1
  refine ⟨env, req, get_more h1, ?_⟩
  rw [srvAt_more name ops op p (by omega), srvAt_more name ops op (p + 1) (by omega)]
  exact h2

theorem EndedAt.more {name : Bytes} {ops : List (SrvOp D H)} {k : Nat} {id : Bytes} {args : JVal D} {h : H} {r : ToolRes D} (hs : EndedAt name ops k id args h r)
    (op : SrvOp D H) : EndedAt name (ops ++ [op]) k id args h r := by
  obtain ⟨env, n, h1, h2⟩ := hs
  have hl : k < ops.length := (List.getElem?_eq_some_iff.1 h1).1
  refine ⟨env, n, get_more h1, ?_⟩
  rw [srvAt_more name ops op k (by omega)]
  exact h2

theorem FailedAt.more {name : Bytes} {ops : List (SrvOp D H)} {k : Nat} {id : Bytes} {v : JVal D} (hs : FailedAt name ops k id v) (op : SrvOp D H) :
    FailedAt name (ops ++ [op]) k id v := by
  rcases hs with ⟨o, h1, h2⟩ | ⟨env, n, h, args, h1, h2⟩
  · exact .inl ⟨o, get_more h1, h2⟩
  · have hl : k < ops.length := (List.getElem?_eq_some_iff.1 h1).1
    refine .inr ⟨env, n, h, args, get_more h1, ?_⟩
    rw [srvAt_more name ops op k (by omega)]
    exact h2

/-! ### The origin of tasks and of their outcomes -/

/-- Where workers and outcomes come from. -/
structure Origin (name : Bytes) (ops : List (SrvOp D H)) (s : Srv D H) : Prop where
  workers : ∀ id h args, (id, h, args) ∈ s.workers → ∃ p tool, StartedAt name ops p id tool args h
  outcomes : ∀ id r v, AMap.get s.tasks.records id = some r → r.payload = some v → r.isError = false →
    ∃ p k tool args h t, p < k ∧ StartedAt name ops p id tool args h ∧ EndedAt name ops k id args h t ∧ v = toolResultJson t
  failures : ∀ id r v, AMap.get s.tasks.records id = some r → r.payload = some v → r.isError = true → ∃ k, FailedAt name ops k id v

/-- What a terminal transition leaves in the store. -/
theorem record_setTerminal {s : Store D} {i st : Bytes} {m : Option Bytes} {e : Bool} {p : JVal D} {rs : Bool} {now id : Bytes} {r : Record D}
    (h : AMap.get (s.setTerminal i st m e p rs now).2.2.records id = some r) :
    AMap.get s.records id = some r ∨ id = i ∧ r.payload = some p ∧ r.isError = e := by
  rcases setTerminal_cases s i st m e p rs now with h1 | ⟨r0, -, -, -, h1⟩
  · rw [h1] at h; exact .inl h
  · rw [h1] at h
    simp only at h
    rw [AMap.get_put] at h
    split at h
    · rename_i he
      cases h
      exact .inr ⟨he, rfl, rfl⟩
    · exact .inl h

/-- What the end of a worker leaves in the store. -/
theorem record_work {env : Env D H} {s : Srv D H} {k : Nat} {id : Bytes} {r : Record D} {v : JVal D} (h : AMap.get (s.work env k).tasks.records id = some r)
    (hp : r.payload = some v) (he : r.isError = false) :
    AMap.get s.tasks.records id = some r ∨
      ∃ h args t, s.workers[k]? = some (id, h, args) ∧ env.tool h args = .ret t ∧ v = toolResultJson t := by
  unfold Srv.work at h
  split at h
  · exact .inl h
  · rename_i i hd args hw
    simp only at h
    split at h
    · exact .inl h
    · exact .inl h
    · rcases record_setTerminal h with h1 | ⟨-, -, h1⟩
      · exact .inl h1
      · rw [he] at h1; cases h1
    · rename_i t ht
      split at h
      · rcases record_setTerminal h with h1 | ⟨-, -, h1⟩
        · exact .inl h1
        · rw [he] at h1; cases h1
      · rcases record_setTerminal h with h1 | ⟨rfl, h2, -⟩
        · exact .inl h1
        · rw [hp] at h2
          cases h2
          exact .inr ⟨hd, args, t, hw, ht, rfl⟩

/-- What the end of a worker leaves in the store as a failure. -/
theorem failure_work {env : Env D H} {s : Srv D H} {k : Nat} {id : Bytes} {r : Record D} {v : JVal D} (h : AMap.get (s.work env k).tasks.records id = some r)
    (hp : r.payload = some v) (he : r.isError = true) :
    AMap.get s.tasks.records id = some r ∨
      ∃ h args, s.workers[k]? = some (id, h, args) ∧ ((∃ e, env.tool h args = .std e ∧ v = errorText e) ∨
        ∃ r, env.tool h args = .ret r ∧ s.strict = true ∧ validateCallToolResult (toolResultJson r) = false ∧ v = errorText (lit "Invalid tool result shape")) := by
  unfold Srv.work at h
  split at h
  · exact .inl h
  · rename_i i hd args hw
    simp only at h
    split at h
    · exact .inl h
    · exact .inl h
    · rename_i e ht
      rcases record_setTerminal h with h1 | ⟨rfl, h2, -⟩
      · exact .inl h1
      · rw [hp] at h2
        cases h2
        exact .inr ⟨hd, args, hw, .inl ⟨e, ht, rfl⟩⟩
    · rename_i t ht
      split at h
      · rename_i hs
        rcases record_setTerminal h with h1 | ⟨rfl, h2, -⟩
        · exact .inl h1
        · rw [hp] at h2
          cases h2
          simp only [Bool.and_eq_true, Bool.not_eq_true'] at hs
          exact .inr ⟨hd, args, hw, .inr ⟨t, ht, hs.1, hs.2, rfl⟩⟩
      · rcases record_setTerminal h with h1 | ⟨-, -, h1⟩
        · exact .inl h1
        · rw [he] at h1; cases h1

theorem handleCancel_exact (s : Store D) (al : Bool) (p : Option (JVal D)) (now : Bytes) :
    (handleCancel s al p now).2 = s ∨ ∃ id, taskIdParam p = some id ∧ (handleCancel s al p now).2 = (s.cancel id (errorText (lit "Cancelled")) now).2.2 := by
  unfold handleCancel
  split
  · split
    · exact .inl rfl
    · rename_i id hid
      refine .inr ⟨id, hid, ?_⟩
      rw [show (errorText (lit "Cancelled") : JVal D) = mkErrorObj Code.internalError (lit "Cancelled") none from rfl]
      generalize s.cancel id (mkErrorObj Code.internalError (lit "Cancelled") none) now = c
      obtain ⟨b, o, s'⟩ := c
      cases b <;> cases o <;> rfl
  · exact .inl rfl

theorem dispatch_cancel (env : Env D H) (s : Srv D H) (req : Request D) (h : req.method = lit "tasks/cancel") :
    (dispatch env s req).2.tasks = s.tasks ∨
      ∃ id, taskIdParam req.params = some id ∧ (dispatch env s req).2.tasks = (s.tasks.cancel id (errorText (lit "Cancelled")) env.now).2.2 := by
  unfold dispatch
  rw [h]
  rw [if_neg (by decide), if_neg (by decide), if_neg (by decide), if_neg (by decide), if_neg (by decide), if_neg (by decide), if_neg (by decide), if_pos rfl]
  exact handleCancel_exact s.tasks _ req.params env.now

theorem workers_work (env : Env D H) (s : Srv D H) (k : Nat) : (s.work env k).workers.Sublist s.workers := by
  rcases work_cases env s k with ⟨-, h⟩ | ⟨_, _, _, _, _, _, _, -, h, -⟩
  · exact h
  · rw [h]; exact List.eraseIdx_sublist _ _

theorem origin_same {name : Bytes} {ops : List (SrvOp D H)} {s s' : Srv D H} (h : Origin name ops s) (op : SrvOp D H) (hw : s'.workers.Sublist s.workers)
    (ht : ∀ id r v, AMap.get s'.tasks.records id = some r → r.payload = some v →
      AMap.get s.tasks.records id = some r ∨ r.isError = true ∧ FailedAt name (ops ++ [op]) ops.length id v) :
    Origin name (ops ++ [op]) s' := by
  refine ⟨fun id hd args hm => ?_, fun id r v hr hp he => ?_, fun id r v hr hp he => ?_⟩
  · obtain ⟨p, tool, h1⟩ := h.workers id hd args (hw.subset hm)
    exact ⟨p, tool, h1.more op⟩
  · rcases ht id r v hr hp with h0 | ⟨h0, -⟩
    · obtain ⟨p, k, tool, args, hd, t, h1, h2, h3, h4⟩ := h.outcomes id r v h0 hp he
      exact ⟨p, k, tool, args, hd, t, h1, h2.more op, h3.more op, h4⟩
    · rw [he] at h0; cases h0
  · rcases ht id r v hr hp with h0 | ⟨-, h0⟩
    · obtain ⟨k, h1⟩ := h.failures id r v h0 hp he
      exact ⟨k, h1.more op⟩
    · exact ⟨_, h0⟩

theorem started_lt {name : Bytes} {ops : List (SrvOp D H)} {p : Nat} {id tool : Bytes} {args : JVal D} {h : H} (hs : StartedAt name ops p id tool args h) :
    p < ops.length := by
  obtain ⟨_, _, h1, -⟩ := hs
  exact (List.getElem?_eq_some_iff.1 h1).1

theorem origin_step {name : Bytes} {ops : List (SrvOp D H)} (hn : ops.length + 2 < 2 ^ 64) (h : Origin name ops ((Srv.init name).run ops)) (op : SrvOp D H) :
    Origin name (ops ++ [op]) (((Srv.init name).run ops).step op) := by
  cases op with
  | register c op => exact origin_same h _ (List.Sublist.refl _) fun _ _ _ h _ => .inl h
  | setStrict b => exact origin_same h _ (List.Sublist.refl _) fun _ _ _ h _ => .inl h
  | setSampling x => exact origin_same h _ (List.Sublist.refl _) fun _ _ _ h _ => .inl h
  | setCompletion x => exact origin_same h _ (List.Sublist.refl _) fun _ _ _ h _ => .inl h
  | worker env k =>
    refine ⟨fun id hd args hm => ?_, fun id r v hr hp he => ?_, fun id r v hr hp he => ?_⟩
    · obtain ⟨p, tool, h1⟩ := h.workers id hd args ((workers_work env _ k).subset hm)
      exact ⟨p, tool, h1.more _⟩
    · rcases record_work hr hp he with h1 | ⟨hd, args, t, h1, h2, h3⟩
      · obtain ⟨p, k, tool, args, hd, t, g1, g2, g3, g4⟩ := h.outcomes id r v h1 hp he
        exact ⟨p, k, tool, args, hd, t, g1, g2.more _, g3.more _, g4⟩
      · obtain ⟨p, tool, g1⟩ := h.workers id hd args (List.mem_of_getElem? h1)
        refine ⟨p, ops.length, tool, args, hd, t, started_lt g1, g1.more _, ⟨env, k, by simp, ?_, h2⟩, h3⟩
        rw [srvAt_more name ops _ _ (Nat.le_refl _), srvAt_end]
        exact h1
    · rcases failure_work hr hp he with h1 | ⟨hd, args, h1, h2⟩
      · obtain ⟨k, g⟩ := h.failures id r v h1 hp he
        exact ⟨k, g.more _⟩
      · refine ⟨ops.length, .inr ⟨env, k, hd, args, by simp, ?_⟩⟩
        rw [srvAt_more name ops _ _ (Nat.le_refl _), srvAt_end]
        exact ⟨h1, h2⟩
  | request env req =>
    show Origin name (ops ++ [.request env req]) (dispatch env ((Srv.init name).run ops) req).2
    by_cases hm : req.method = lit "tools/call"
    · have hdd := dispatch_tools env ((Srv.init name).run ops) req hm
      rcases toolsCall_cases env ((Srv.init name).run ops) req with h1 | ⟨tool, hh, _, _, _, _, _, _, he⟩ | ⟨tool, hh, ttl, c1, c2, c3, _, c5, _, he⟩
      · rw [hdd]; simp only; rw [h1]; exact origin_same h _ (List.Sublist.refl _) fun _ _ _ h _ => .inl h
      · rw [hdd]; simp only; rw [he]; exact origin_same h _ (List.Sublist.refl _) fun _ _ _ h _ => .inl h
      · obtain ⟨k0, -, hi⟩ := (srvGood_reach (D := D) (H := H) name ops (by omega)).store
        have hf := fresh_id hi
        have hnew : StartedAt name (ops ++ [SrvOp.request env req]) ops.length (lit "task-" ++ natDec ((Srv.init name : Srv D H).run ops).tasks.nextId) tool (argsOf req.params) hh := by
          refine ⟨env, req, by simp, (calls_iff _ _ _).2 ⟨hm, c2, c1, rfl⟩, (taskMeta_iff req).1 (by rw [c5]; rfl), ?_, ?_, ?_⟩
          · rw [srvAt_more name ops _ _ (Nat.le_refl _), srvAt_end]; exact c3
          · rw [srvAt_more name ops _ _ (Nat.le_refl _), srvAt_end]; exact hf
          · rw [srvAt_succ (op := SrvOp.request env req) (by simp), srvAt_more name ops _ _ (Nat.le_refl _), srvAt_end]
            show (AMap.get (dispatch env ((Srv.init name).run ops) req).2.tasks.records _).isSome = true
            rw [hdd]; simp only; rw [he]
            show (AMap.get (AMap.put _ _ _) _).isSome = true
            rw [AMap.get_put_self]; rfl
        rw [hdd]; simp only; rw [he]
        refine ⟨fun id hd args hmem => ?_, fun id r v hr hp hee => ?_, fun id r v hr hp hee => ?_⟩
        · rcases List.mem_append.1 hmem with hmem | hmem
          · obtain ⟨p, tl, g1⟩ := h.workers id hd args hmem
            exact ⟨p, tl, g1.more _⟩
          · rw [List.mem_singleton] at hmem
            cases hmem
            exact ⟨ops.length, tool, hnew⟩
        · change AMap.get (AMap.put ((Srv.init name).run ops).tasks.records (lit "task-" ++ natDec ((Srv.init name : Srv D H).run ops).tasks.nextId) _) id = some r at hr
          rw [AMap.get_put] at hr
          split at hr
          · cases hr; cases hp
          · obtain ⟨p, k, tl, args, hd, t, g1, g2, g3, g4⟩ := h.outcomes id r v hr hp hee
            exact ⟨p, k, tl, args, hd, t, g1, g2.more _, g3.more _, g4⟩
        · change AMap.get (AMap.put ((Srv.init name).run ops).tasks.records (lit "task-" ++ natDec ((Srv.init name : Srv D H).run ops).tasks.nextId) _) id = some r at hr
          rw [AMap.get_put] at hr
          split at hr
          · cases hr; cases hp
          · obtain ⟨k, g⟩ := h.failures id r v hr hp hee
            exact ⟨k, g.more _⟩
    · have hq := dispatch_quiet env ((Srv.init name).run ops) req hm
      refine origin_same h _ (by rw [hq.workers]; exact List.Sublist.refl _) fun id r v hr hp => ?_
      rcases hq.tasks with h1 | ⟨hc, -⟩
      · rw [h1] at hr; exact .inl hr
      · rcases dispatch_cancel env ((Srv.init name).run ops) req hc with h1 | ⟨i, hi, h1⟩
        · rw [h1] at hr; exact .inl hr
        · rw [h1] at hr
          rcases record_setTerminal hr with h2 | ⟨rfl, h2, h3⟩
          · exact .inl h2
          · rw [hp] at h2
            cases h2
            exact .inr ⟨h3, .inl ⟨.request env req, by simp, ⟨hc, hi⟩, rfl⟩⟩

theorem origin_reach (name : Bytes) (ops : List (SrvOp D H)) (hn : ops.length + 1 < 2 ^ 64) : Origin name ops ((Srv.init name).run ops) := by
  have key : ∀ r : List (SrvOp D H), r.length + 1 < 2 ^ 64 → Origin name r.reverse ((Srv.init name).run r.reverse) := by
    intro r
    induction r with
    | nil => intro _; exact ⟨fun id h args hm => (nomatch hm), fun id r v h => (nomatch h), fun id r v h => (nomatch h)⟩
    | cons op r ih =>
      intro hl
      simp only [List.length_cons] at hl
      rw [List.reverse_cons, srv_run_append]
      exact origin_step (by rw [List.length_reverse]; omega) (ih (by omega)) op
  have := key ops.reverse (by rw [List.length_reverse]; exact hn)
  rwa [List.reverse_reverse] at this

/-- **C131.** In every execution of a server, an outcome of a task that is not an error is what the handler returned that was registered under the name of the tool when the request
for this task was dispatched, for the arguments of that request, when the worker of the task came to its end. -/
theorem C131_origin (name : Bytes) (ops : List (SrvOp D H)) (hn : ops.length + 1 < 2 ^ 64) (id : Bytes) (v : JVal D) :
    ((Srv.init name : Srv D H).run ops).tasks.wait id = .got false v →
      ∃ p k tool args h t, p < k ∧ StartedAt name ops p id tool args h ∧ EndedAt name ops k id args h t ∧ v = toolResultJson t := by
  intro h
  unfold Store.wait at h
  split at h
  · cases h
  · rename_i r hr
    split at h
    · cases h
    · rename_i p hp
      injection h with h1 h2
      subst h2
      exact (origin_reach name ops hn).outcomes id r p hr hp h1

/-- **C131.** An outcome of a task that is an error tells that the task was cancelled on request, that its handler threw and what, or that the server in strict mode did not take what
the handler returned. -/
theorem C131_failure (name : Bytes) (ops : List (SrvOp D H)) (hn : ops.length + 1 < 2 ^ 64) (id : Bytes) (v : JVal D) :
    ((Srv.init name : Srv D H).run ops).tasks.wait id = .got true v → ∃ k, FailedAt name ops k id v := by
  intro h
  unfold Store.wait at h
  split at h
  · cases h
  · rename_i r hr
    split at h
    · cases h
    · rename_i p hp
      injection h with h1 h2
      subst h2
      exact (origin_reach name ops hn).failures id r p hr hp h1

/-- Tasks stay known. -/
theorem known_later {name : Bytes} {ops : List (SrvOp D H)} (hn : ops.length + 1 < 2 ^ 64) {p : Nat} {id : Bytes}
    (h : (AMap.get (srvAt name ops p).tasks.records id).isSome = true) (d : Nat) : (AMap.get (srvAt name ops (p + d)).tasks.records id).isSome = true := by
  induction d with
  | zero => exact h
  | succ d ih =>
    cases hop : ops[p + d]? with
    | none =>
      have h1 : ops.length ≤ p + d := List.getElem?_eq_none_iff.1 hop
      unfold srvAt at ih ⊢
      rw [List.take_of_length_le h1] at ih
      rw [List.take_of_length_le (by omega)]
      exact ih
    | some op =>
      rw [← Nat.add_assoc, srvAt_succ hop]
      have hl : (ops.take (p + d)).length + 1 < 2 ^ 64 := by rw [List.length_take]; omega
      obtain ⟨k, -, hi⟩ := (srvGood_reach (D := D) (H := H) name (ops.take (p + d)) hl).store
      rcases step_store (srvAt name ops (p + d)) op with h1 | ⟨o, h1⟩
      · rw [h1]; exact ih
      · rw [h1]
        obtain ⟨r, hr⟩ := Option.isSome_iff_exists.1 ih
        obtain ⟨r', h2, -⟩ := step_record (s := (srvAt name ops (p + d)).tasks) hi o hr
        rw [h2]; rfl

theorem args_once {req : Request D} {tool tool' : Bytes} {args args' : JVal D} (h : Calls req tool args) (h' : Calls req tool' args') : tool = tool' ∧ args = args' := by
  obtain ⟨-, -, h1, h2⟩ := (calls_iff _ _ _).1 h
  obtain ⟨-, -, h1', h2'⟩ := (calls_iff _ _ _).1 h'
  exact ⟨h1.symm.trans h1', h2.symm.trans h2'⟩

/-- **C131.** Every task id is given out once: it belongs to one request, to the tool and the arguments it named and to the handler that tool then had. -/
theorem C131_once (name : Bytes) (ops : List (SrvOp D H)) (hn : ops.length + 1 < 2 ^ 64) (p p' : Nat) (id tool tool' : Bytes) (args args' : JVal D) (h h' : H) :
    StartedAt name ops p id tool args h → StartedAt name ops p' id tool' args' h' → p = p' ∧ tool = tool' ∧ args = args' ∧ h = h' := by
  rintro ⟨env, req, h1, h2, h2', h3, h4, h5⟩ ⟨env', req', g1, g2, g2', g3, g4, g5⟩
  have hp : p = p' := by
    rcases Nat.lt_trichotomy p p' with hl | hl | hl
    · have := known_later hn h5 (p' - (p + 1))
      rw [show p + 1 + (p' - (p + 1)) = p' by omega, g4] at this
      cases this
    · exact hl
    · have := known_later hn g5 (p - (p' + 1))
      rw [show p' + 1 + (p - (p' + 1)) = p by omega, h4] at this
      cases this
  subst hp
  rw [h1] at g1
  cases g1
  obtain ⟨rfl, rfl⟩ := args_once h2 g2
  rw [h3] at g3
  cases g3
  exact ⟨rfl, rfl, rfl, rfl⟩

end Verif
