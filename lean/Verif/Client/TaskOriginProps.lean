import Verif.Client.TaskProps
import Verif.Server.TaskOriginProps

/-!
C132: where the outcome of a task of the client comes from.
-/

set_option linter.unusedSectionVars false

namespace Verif

open Server Tasks Resource Validation Client
open Caps hiding Obj

variable {D H : Type}

/-! ### Specification -/

/-- The client before step `p` of an execution. -/
def cliAt (ops : List (CliOp D H)) (p : Nat) : Cli D H := (Cli.init).run (ops.take p)

/-- The request is one for this job: to sample, or to elicit, with the arguments a handler would be given for the same request without a task. -/
def Orders (req : Request D) : Client.Job D → Prop
  | .sample a => req.method = lit "sampling/createMessage" ∧ a = sampleArgs req.params
  | .elicit r => req.method = lit "elicitation/create" ∧ r = elicitOf (req.params.getD (.obj []))

/-- In this state of the client, its handler for the job was called with the arguments of the job and returned what is written as `v`. -/
def Returned (env : CliEnv D H) (s : Cli D H) : Client.Job D → JVal D → Prop
  | .sample a, v => ∃ h, (s.sampling = some h ∨ s.sampling = none ∧ s.samplingCancelable = some h) ∧ env.sample h a = .ret v
  | .elicit r, v => ∃ h x, s.elicit = some h ∧ env.elicit h r = .ret x ∧ v.get? (lit "action") = some (.str x.action) ∧ v.get? (lit "content") = x.content ∧
      v.get? (lit "elicitationId") = x.elicitationId.map .str ∧ ∃ m, v = .obj m

/-- In this state of the client, its handler for the job threw an exception with this text, or there was none. -/
def Raised (env : CliEnv D H) (s : Cli D H) : Client.Job D → Bytes → Prop
  | .sample a, e => (s.sampling = none ∧ s.samplingCancelable = none ∧ e = lit "bad_function_call") ∨
      ∃ h, (s.sampling = some h ∨ s.sampling = none ∧ s.samplingCancelable = some h) ∧ env.sample h a = .std e
  | .elicit r, e => (s.elicit = none ∧ e = lit "bad_function_call") ∨ ∃ h, s.elicit = some h ∧ env.elicit h r = .std e

/-- Step `p` of the execution is a request for the job as a task, and with it task `id` came into being. -/
def BegunAt (ops : List (CliOp D H)) (p : Nat) (id : Bytes) (j : Client.Job D) : Prop :=
  ∃ env req, ops[p]? = some (.request env req) ∧ Orders req j ∧ AsksTask req ∧
    AMap.get (cliAt ops p).tasks.records id = none ∧ (AMap.get (cliAt ops (p + 1)).tasks.records id).isSome = true

/-- With step `k` of the execution a worker that did the job for task `id` came to its end, and `v` is what the handler returned. -/
def DoneAt (ops : List (CliOp D H)) (k : Nat) (id : Bytes) (j : Client.Job D) (v : JVal D) : Prop :=
  ∃ env n, ops[k]? = some (.worker env n) ∧ (cliAt ops k).workers[n]? = some (id, j) ∧ Returned env (cliAt ops k) j v

/-- With step `k` of the execution task `id` was cancelled, or its worker came to its end because the handler had thrown, or had returned what the strict mode does not take; and `v`
tells which. -/
def MissedAt (ops : List (CliOp D H)) (k : Nat) (id : Bytes) (v : JVal D) : Prop :=
  (∃ op, ops[k]? = some op ∧ CancelsAt id op ∧ v = errorText (lit "Cancelled")) ∨
  ∃ env n j, ops[k]? = some (.worker env n) ∧ (cliAt ops k).workers[n]? = some (id, j) ∧
    ((∃ e, Raised env (cliAt ops k) j e ∧ v = errorText e) ∨ ∃ r, Returned env (cliAt ops k) j r ∧ (cliAt ops k).strict = true ∧ jobValid j r = false ∧ v = errorText (jobBad j))

/-! ### Places in longer executions -/

theorem cliAt_more (ops : List (CliOp D H)) (op : CliOp D H) (p : Nat) (h : p ≤ ops.length) : cliAt (ops ++ [op]) p = cliAt ops p := by
  unfold cliAt
  rw [List.take_append_of_le_length h]

theorem cliAt_end (ops : List (CliOp D H)) : cliAt ops ops.length = (Cli.init).run ops := by
  unfold cliAt
  rw [List.take_length]

theorem cliAt_succ {ops : List (CliOp D H)} {p : Nat} {op : CliOp D H} (h : ops[p]? = some op) : cliAt ops (p + 1) = (cliAt ops p).step op := by
  unfold cliAt
  rw [List.take_add_one, h, cli_run_append]
  rfl

theorem BegunAt.more {ops : List (CliOp D H)} {p : Nat} {id : Bytes} {j : Client.Job D} (hs : BegunAt ops p id j) (op : CliOp D H) : BegunAt (ops ++ [op]) p id j := by
  obtain ⟨env, req, h1, h2⟩ := hs
  have hl : p < ops.length := (List.getElem?_eq_some_iff.1 h1).1
  refine ⟨env, req, get_more h1, ?_⟩
  rw [cliAt_more ops op p (by omega), cliAt_more ops op (p + 1) (by omega)]
  exact h2

theorem DoneAt.more {ops : List (CliOp D H)} {k : Nat} {id : Bytes} {j : Client.Job D} {v : JVal D} (hs : DoneAt ops k id j v) (op : CliOp D H) : DoneAt (ops ++ [op]) k id j v := by
  obtain ⟨env, n, h1, h2⟩ := hs
  have hl : k < ops.length := (List.getElem?_eq_some_iff.1 h1).1
  refine ⟨env, n, get_more h1, ?_⟩
  rw [cliAt_more ops op k (by omega)]
  exact h2

theorem MissedAt.more {ops : List (CliOp D H)} {k : Nat} {id : Bytes} {v : JVal D} (hs : MissedAt ops k id v) (op : CliOp D H) : MissedAt (ops ++ [op]) k id v := by
  rcases hs with ⟨o, h1, h2⟩ | ⟨env, n, j, h1, h2⟩
  · exact .inl ⟨o, get_more h1, h2⟩
  · have hl : k < ops.length := (List.getElem?_eq_some_iff.1 h1).1
    refine .inr ⟨env, n, j, get_more h1, ?_⟩
    rw [cliAt_more ops op k (by omega)]
    exact h2

/-! ### The origin of tasks and of their outcomes -/

/-- Where workers and outcomes come from. -/
structure CliOrigin (ops : List (CliOp D H)) (s : Cli D H) : Prop where
  workers : ∀ id j, (id, j) ∈ s.workers → ∃ p, BegunAt ops p id j
  outcomes : ∀ id r v, AMap.get s.tasks.records id = some r → r.payload = some v → r.isError = false → ∃ p k j, p < k ∧ BegunAt ops p id j ∧ DoneAt ops k id j v
  failures : ∀ id r v, AMap.get s.tasks.records id = some r → r.payload = some v → r.isError = true → ∃ k, MissedAt ops k id v

theorem sampler_cases {s : Cli D H} {h : H} (hs : s.sampler = some h) : s.sampling = some h ∨ s.sampling = none ∧ s.samplingCancelable = some h := by
  unfold Cli.sampler at hs
  split at hs
  · cases hs; exact .inl (by assumption)
  · exact .inr ⟨by assumption, hs⟩

theorem elicitRes_get (x : ElicitRes D) : (elicitResJson x).get? (lit "action") = some (.str x.action) ∧ (elicitResJson x).get? (lit "content") = x.content ∧
    (elicitResJson x).get? (lit "elicitationId") = x.elicitationId.map .str ∧ ∃ m, elicitResJson x = .obj m := by
  obtain ⟨a, b, c⟩ := x
  cases b <;> cases c <;> exact ⟨rfl, rfl, rfl, _, rfl⟩

theorem job_returned {env : CliEnv D H} {s : Cli D H} {j : Client.Job D} {v : JVal D} (h : jobEnds env s j = .ret v) : Returned env s j v := by
  cases j with
  | elicit r =>
    simp only [jobEnds] at h
    split at h
    · cases h
    · rename_i g hg
      cases hx : env.elicit g r with
      | ret x => rw [hx] at h; cases h; exact ⟨g, x, hg, hx, elicitRes_get x⟩
      | std e => rw [hx] at h; cases h
      | other => rw [hx] at h; cases h
      | never => rw [hx] at h; cases h
  | sample a =>
    simp only [jobEnds] at h
    split at h
    · cases h
    · rename_i g hg
      exact ⟨g, sampler_cases hg, h⟩

theorem job_raised {env : CliEnv D H} {s : Cli D H} {j : Client.Job D} {e : Bytes} (h : jobEnds env s j = .std e) : Raised env s j e := by
  cases j with
  | elicit r =>
    simp only [jobEnds] at h
    split at h
    · rename_i hn; cases h; exact .inl ⟨hn, rfl⟩
    · rename_i g hg
      cases hx : env.elicit g r with
      | ret x => rw [hx] at h; cases h
      | std e => rw [hx] at h; cases h; exact .inr ⟨g, hg, hx⟩
      | other => rw [hx] at h; cases h
      | never => rw [hx] at h; cases h
  | sample a =>
    simp only [jobEnds] at h
    split at h
    · rename_i hn
      cases h
      refine .inl ?_
      unfold Cli.sampler at hn
      split at hn
      · cases hn
      · exact ⟨by assumption, hn, rfl⟩
    · rename_i g hg
      exact .inr ⟨g, sampler_cases hg, h⟩

/-- What the end of a worker leaves in the store. -/
theorem record_cliWork {env : CliEnv D H} {s : Cli D H} {k : Nat} {id : Bytes} {r : Record D} {v : JVal D} (h : AMap.get (s.work env k).tasks.records id = some r)
    (hp : r.payload = some v) :
    AMap.get s.tasks.records id = some r ∨ ∃ j, s.workers[k]? = some (id, j) ∧
      ((r.isError = false ∧ Returned env s j v) ∨
        (r.isError = true ∧ ((∃ e, Raised env s j e ∧ v = errorText e) ∨ ∃ x, Returned env s j x ∧ s.strict = true ∧ jobValid j x = false ∧ v = errorText (jobBad j)))) := by
  unfold Cli.work at h
  split at h
  · exact .inl h
  · rename_i i j hw
    simp only at h
    split at h
    · exact .inl h
    · exact .inl h
    · rename_i e ht
      rcases record_setTerminal h with h1 | ⟨rfl, h2, h3⟩
      · exact .inl h1
      · rw [hp] at h2
        cases h2
        exact .inr ⟨j, hw, .inr ⟨h3, .inl ⟨e, job_raised ht, rfl⟩⟩⟩
    · rename_i x ht
      split at h
      · rename_i hs
        rcases record_setTerminal h with h1 | ⟨rfl, h2, h3⟩
        · exact .inl h1
        · rw [hp] at h2
          cases h2
          simp only [Bool.and_eq_true, Bool.not_eq_true'] at hs
          exact .inr ⟨j, hw, .inr ⟨h3, .inr ⟨x, job_returned ht, hs.1, hs.2, rfl⟩⟩⟩
      · rcases record_setTerminal h with h1 | ⟨rfl, h2, h3⟩
        · exact .inl h1
        · rw [hp] at h2
          cases h2
          exact .inr ⟨j, hw, .inl ⟨h3, job_returned ht⟩⟩

theorem cliWork_sub (env : CliEnv D H) (s : Cli D H) (k : Nat) : (s.work env k).workers.Sublist s.workers := by
  unfold Cli.work
  split
  · exact List.Sublist.refl _
  · simp only
    split
    · exact List.Sublist.refl _
    · exact List.eraseIdx_sublist _ _
    · exact List.eraseIdx_sublist _ _
    · split <;> exact List.eraseIdx_sublist _ _

/-- What a request does to the tasks and workers. -/
theorem cliRequest_cases (env : CliEnv D H) (s : Cli D H) (req : Request D) :
    ((onRequest env s req).2.tasks = s.tasks ∧ (onRequest env s req).2.workers = s.workers) ∨
    (∃ id, req.method = lit "tasks/cancel" ∧ taskIdParam req.params = some id ∧ (onRequest env s req).2.workers = s.workers ∧
      (onRequest env s req).2.tasks = (s.tasks.cancel id (errorText (lit "Cancelled")) env.now).2.2) ∨
    ∃ j k ttl, Orders req j ∧ AsksTask req ∧ onRequest env s req = startTask s env.now req.id k ttl j := by
  unfold onRequest
  by_cases h1 : req.method = lit "ping"
  · rw [if_pos h1]; exact .inl ⟨rfl, rfl⟩
  rw [if_neg h1]
  by_cases h2 : req.method = lit "roots/list"
  · rw [if_pos h2]; exact .inl ⟨rfl, rfl⟩
  rw [if_neg h2]
  by_cases h3 : req.method = lit "tasks/get"
  · rw [if_pos h3]; exact .inl ⟨rfl, rfl⟩
  rw [if_neg h3]
  by_cases h4 : req.method = lit "tasks/list"
  · rw [if_pos h4]; exact .inl ⟨rfl, rfl⟩
  rw [if_neg h4]
  by_cases h5 : req.method = lit "tasks/result"
  · rw [if_pos h5]; exact .inl ⟨rfl, rfl⟩
  rw [if_neg h5]
  by_cases h6 : req.method = lit "tasks/cancel"
  · rw [if_pos h6]
    rcases handleCancel_exact s.tasks (cliAllows s (·.cancel)) req.params env.now with h | ⟨id, hid, h⟩
    · exact .inl ⟨h, rfl⟩
    · exact .inr (.inl ⟨id, h6, hid, rfl, h⟩)
  rw [if_neg h6]
  by_cases h7 : req.method = lit "elicitation/create"
  · rw [if_pos h7]
    unfold cliElicit
    split
    · exact .inl ⟨rfl, rfl⟩
    · simp only
      split
      · exact .inl ⟨rfl, rfl⟩
      · split
        · rename_i ttl ht
          split
          · exact .inr (.inr ⟨.elicit _, _, _, ⟨h7, rfl⟩, (taskMeta_iff req).1 (by rw [ht]; rfl), rfl⟩)
          · exact .inl ⟨rfl, rfl⟩
        · exact .inl ⟨rfl, rfl⟩
  rw [if_neg h7]
  by_cases h8 : req.method = lit "sampling/createMessage"
  · rw [if_pos h8]
    unfold cliSample
    split
    · rename_i ttl ht
      split
      · split
        · exact .inl ⟨rfl, rfl⟩
        · split
          · exact .inl ⟨rfl, rfl⟩
          · exact .inr (.inr ⟨.sample _, _, _, ⟨h8, rfl⟩, (taskMeta_iff req).1 (by rw [ht]; rfl), rfl⟩)
      · exact .inl ⟨rfl, rfl⟩
    · exact .inl ⟨rfl, rfl⟩
  rw [if_neg h8]
  exact .inl ⟨rfl, rfl⟩

theorem cliOrigin_same {ops : List (CliOp D H)} {s s' : Cli D H} (h : CliOrigin ops s) (op : CliOp D H) (hw : s'.workers.Sublist s.workers)
    (ht : ∀ id r v, AMap.get s'.tasks.records id = some r → r.payload = some v →
      AMap.get s.tasks.records id = some r ∨ r.isError = true ∧ MissedAt (ops ++ [op]) ops.length id v) :
    CliOrigin (ops ++ [op]) s' := by
  refine ⟨fun id j hm => ?_, fun id r v hr hp he => ?_, fun id r v hr hp he => ?_⟩
  · obtain ⟨p, h1⟩ := h.workers id j (hw.subset hm)
    exact ⟨p, h1.more op⟩
  · rcases ht id r v hr hp with h0 | ⟨h0, -⟩
    · obtain ⟨p, k, j, h1, h2, h3⟩ := h.outcomes id r v h0 hp he
      exact ⟨p, k, j, h1, h2.more op, h3.more op⟩
    · rw [he] at h0; cases h0
  · rcases ht id r v hr hp with h0 | ⟨-, h0⟩
    · obtain ⟨k, h1⟩ := h.failures id r v h0 hp he
      exact ⟨k, h1.more op⟩
    · exact ⟨_, h0⟩

theorem begun_lt {ops : List (CliOp D H)} {p : Nat} {id : Bytes} {j : Client.Job D} (hs : BegunAt ops p id j) : p < ops.length := by
  obtain ⟨_, _, h1, -⟩ := hs
  exact (List.getElem?_eq_some_iff.1 h1).1

theorem cliOrigin_step {ops : List (CliOp D H)} (hn : ops.length + 2 < 2 ^ 64) (h : CliOrigin ops ((Cli.init : Cli D H).run ops)) (op : CliOp D H) :
    CliOrigin (ops ++ [op]) (((Cli.init : Cli D H).run ops).step op) := by
  cases op with
  | setStrict b => exact cliOrigin_same h _ (List.Sublist.refl _) fun _ _ _ h _ => .inl h
  | setRoots x => exact cliOrigin_same h _ (List.Sublist.refl _) fun _ _ _ h _ => .inl h
  | setElicit x => exact cliOrigin_same h _ (List.Sublist.refl _) fun _ _ _ h _ => .inl h
  | setSampling x => exact cliOrigin_same h _ (List.Sublist.refl _) fun _ _ _ h _ => .inl h
  | setSamplingCancelable x => exact cliOrigin_same h _ (List.Sublist.refl _) fun _ _ _ h _ => .inl h
  | «initialize» c => exact cliOrigin_same h _ (List.Sublist.refl _) fun _ _ _ h _ => .inl h
  | worker env k =>
    have hlast : cliAt (ops ++ [CliOp.worker env k]) ops.length = (Cli.init : Cli D H).run ops := by rw [cliAt_more ops _ _ (Nat.le_refl _), cliAt_end]
    refine ⟨fun id j hm => ?_, fun id r v hr hp he => ?_, fun id r v hr hp he => ?_⟩
    · obtain ⟨p, h1⟩ := h.workers id j ((cliWork_sub env _ k).subset hm)
      exact ⟨p, h1.more _⟩
    · rcases record_cliWork hr hp with h1 | ⟨j, h1, ⟨-, h2⟩ | ⟨h2, -⟩⟩
      · obtain ⟨p, k, j, g1, g2, g3⟩ := h.outcomes id r v h1 hp he
        exact ⟨p, k, j, g1, g2.more _, g3.more _⟩
      · obtain ⟨p, g1⟩ := h.workers id j (List.mem_of_getElem? h1)
        refine ⟨p, ops.length, j, begun_lt g1, g1.more _, env, k, by simp, ?_⟩
        rw [hlast]
        exact ⟨h1, h2⟩
      · rw [he] at h2; cases h2
    · rcases record_cliWork hr hp with h1 | ⟨j, h1, ⟨h2, -⟩ | ⟨-, h2⟩⟩
      · obtain ⟨k, g⟩ := h.failures id r v h1 hp he
        exact ⟨k, g.more _⟩
      · rw [he] at h2; cases h2
      · refine ⟨ops.length, .inr ⟨env, k, j, by simp, ?_⟩⟩
        rw [hlast]
        exact ⟨h1, h2⟩
  | request env req =>
    have hlast : cliAt (ops ++ [CliOp.request env req]) ops.length = (Cli.init : Cli D H).run ops := by rw [cliAt_more ops _ _ (Nat.le_refl _), cliAt_end]
    show CliOrigin (ops ++ [.request env req]) (onRequest env ((Cli.init : Cli D H).run ops) req).2
    rcases cliRequest_cases env ((Cli.init : Cli D H).run ops) req with ⟨h1, h2⟩ | ⟨i, h1, h2, h3, h4⟩ | ⟨j, kd, ttl, h1, h2, h3⟩
    · exact cliOrigin_same h _ (by rw [h2]; exact List.Sublist.refl _) fun _ _ _ hr _ => by rw [h1] at hr; exact .inl hr
    · refine cliOrigin_same h _ (by rw [h3]; exact List.Sublist.refl _) fun id r v hr hp => ?_
      rw [h4] at hr
      rcases record_setTerminal hr with g | ⟨rfl, g2, g3⟩
      · exact .inl g
      · rw [hp] at g2
        cases g2
        exact .inr ⟨g3, .inl ⟨.request env req, by simp, ⟨h1, h2⟩, rfl⟩⟩
    · obtain ⟨k0, -, hi⟩ := (cliGood_reach (D := D) (H := H) ops (by omega)).store
      have hf := fresh_id hi
      have hnew : BegunAt (ops ++ [CliOp.request env req]) ops.length (lit "task-" ++ natDec ((Cli.init : Cli D H).run ops).tasks.nextId) j := by
        refine ⟨env, req, by simp, h1, h2, ?_, ?_⟩
        · rw [hlast]; exact hf
        · rw [cliAt_succ (op := CliOp.request env req) (by simp), hlast]
          show (AMap.get (onRequest env ((Cli.init : Cli D H).run ops) req).2.tasks.records _).isSome = true
          rw [h3]
          show (AMap.get (AMap.put _ _ _) _).isSome = true
          rw [AMap.get_put_self]; rfl
      rw [h3]
      have hrec : ∀ {id : Bytes} {r : Record D} {v : JVal D}, AMap.get (startTask ((Cli.init : Cli D H).run ops) env.now req.id kd ttl j).2.tasks.records id = some r → r.payload = some v →
          AMap.get ((Cli.init : Cli D H).run ops).tasks.records id = some r := by
        intro id r v hr hp
        change AMap.get (AMap.put ((Cli.init : Cli D H).run ops).tasks.records (lit "task-" ++ natDec ((Cli.init : Cli D H).run ops).tasks.nextId) _) id = some r at hr
        rw [AMap.get_put] at hr
        split at hr
        · cases hr; cases hp
        · exact hr
      refine ⟨fun id j' hmem => ?_, fun id r v hr hp hee => ?_, fun id r v hr hp hee => ?_⟩
      · rcases List.mem_append.1 hmem with hmem | hmem
        · obtain ⟨p, g1⟩ := h.workers id j' hmem
          exact ⟨p, g1.more _⟩
        · rw [List.mem_singleton] at hmem
          cases hmem
          exact ⟨ops.length, hnew⟩
      · obtain ⟨p, k, j', g1, g2, g3⟩ := h.outcomes id r v (hrec hr hp) hp hee
        exact ⟨p, k, j', g1, g2.more _, g3.more _⟩
      · obtain ⟨k, g⟩ := h.failures id r v (hrec hr hp) hp hee
        exact ⟨k, g.more _⟩

theorem cliOrigin_reach (ops : List (CliOp D H)) (hn : ops.length + 1 < 2 ^ 64) : CliOrigin ops ((Cli.init : Cli D H).run ops) := by
  have key : ∀ r : List (CliOp D H), r.length + 1 < 2 ^ 64 → CliOrigin r.reverse ((Cli.init : Cli D H).run r.reverse) := by
    intro r
    induction r with
    | nil => intro _; exact ⟨fun id j hm => (nomatch hm), fun id r v h => (nomatch h), fun id r v h => (nomatch h)⟩
    | cons op r ih =>
      intro hl
      simp only [List.length_cons] at hl
      rw [List.reverse_cons, cli_run_append]
      exact cliOrigin_step (by rw [List.length_reverse]; omega) (ih (by omega)) op
  have := key ops.reverse (by rw [List.length_reverse]; exact hn)
  rwa [List.reverse_reverse] at this

theorem wait_record {s : Store D} {id : Bytes} {e : Bool} {v : JVal D} (h : s.wait id = .got e v) : ∃ r, AMap.get s.records id = some r ∧ r.payload = some v ∧ r.isError = e := by
  unfold Store.wait at h
  split at h
  · cases h
  · rename_i r hr
    split at h
    · cases h
    · rename_i p hp
      injection h with h1 h2
      subst h2
      exact ⟨r, hr, hp, h1⟩

/-- **C132.** In every execution of a client, an outcome of a task that is not an error is what the handler of the client returned, when the worker of the task came to its end, for
the arguments of the request with which the task came into being. -/
theorem C132_origin (ops : List (CliOp D H)) (hn : ops.length + 1 < 2 ^ 64) (id : Bytes) (v : JVal D) :
    ((Cli.init : Cli D H).run ops).tasks.wait id = .got false v → ∃ p k j, p < k ∧ BegunAt ops p id j ∧ DoneAt ops k id j v := by
  intro h
  obtain ⟨r, h1, h2, h3⟩ := wait_record h
  exact (cliOrigin_reach ops hn).outcomes id r v h1 h2 h3

/-- **C132.** An outcome of a task of the client that is an error tells that the task was cancelled on request, that its handler threw and what, or that there was none any more, or
that the client in strict mode did not take what the handler returned. -/
theorem C132_failure (ops : List (CliOp D H)) (hn : ops.length + 1 < 2 ^ 64) (id : Bytes) (v : JVal D) :
    ((Cli.init : Cli D H).run ops).tasks.wait id = .got true v → ∃ k, MissedAt ops k id v := by
  intro h
  obtain ⟨r, h1, h2, h3⟩ := wait_record h
  exact (cliOrigin_reach ops hn).failures id r v h1 h2 h3

/-- Tasks stay known. -/
theorem cli_known {ops : List (CliOp D H)} (hn : ops.length + 1 < 2 ^ 64) {p : Nat} {id : Bytes}
    (h : (AMap.get (cliAt ops p).tasks.records id).isSome = true) (d : Nat) : (AMap.get (cliAt ops (p + d)).tasks.records id).isSome = true := by
  induction d with
  | zero => exact h
  | succ d ih =>
    cases hop : ops[p + d]? with
    | none =>
      have h1 : ops.length ≤ p + d := List.getElem?_eq_none_iff.1 hop
      unfold cliAt at ih ⊢
      rw [List.take_of_length_le h1] at ih
      rw [List.take_of_length_le (by omega)]
      exact ih
    | some op =>
      rw [← Nat.add_assoc, cliAt_succ hop]
      have hl : (ops.take (p + d)).length + 1 < 2 ^ 64 := by rw [List.length_take]; omega
      obtain ⟨k, -, hi⟩ := (cliGood_reach (D := D) (H := H) (ops.take (p + d)) hl).store
      obtain ⟨r, hr⟩ := Option.isSome_iff_exists.1 ih
      have hrec : ∀ o, (AMap.get ((cliAt ops (p + d)).tasks.step o).records id).isSome = true := by
        intro o
        obtain ⟨r', h2, -⟩ := step_record (s := (cliAt ops (p + d)).tasks) hi o hr
        rw [h2]; rfl
      have hterm : ∀ i st m e q rs now, (AMap.get ((cliAt ops (p + d)).tasks.setTerminal i st m e q rs now).2.2.records id).isSome = true := by
        intro i st m e q rs now
        rcases setTerminal_cases (cliAt ops (p + d)).tasks i st m e q rs now with h1 | ⟨r0, -, -, -, h1⟩
        · rw [h1]; exact ih
        · rw [h1]; simp only
          rw [AMap.get_put]
          split
          · rfl
          · exact ih
      rcases cliEffect_step (cliAt ops (p + d)) op with ⟨ht, -⟩ | ⟨k, env, i, j, _, _, _, ht, -⟩ | ⟨k, ttl, now, j, -, ht, -⟩ | ⟨k, env, i, j, _, _, st, m, e, q, now, ht, -⟩ |
        ⟨i, st, m, e, q, now, _, ht, -⟩
      · rw [ht]; exact ih
      · rw [ht]; exact ih
      · rw [ht]; exact hrec (.create k ttl now)
      · rw [ht]; exact hterm _ _ _ _ _ _ _
      · rw [ht]; exact hterm _ _ _ _ _ _ _

theorem orders_once {req : Request D} {j j' : Client.Job D} (h : Orders req j) (h' : Orders req j') : j = j' := by
  cases j with
  | elicit r =>
    cases j' with
    | elicit r' => rw [h.2, h'.2]
    | sample a' => have := h.1.symm.trans h'.1; exact absurd this (by decide)
  | sample a =>
    cases j' with
    | elicit r' => have := h.1.symm.trans h'.1; exact absurd this (by decide)
    | sample a' => rw [h.2, h'.2]

/-- **C132.** Every task id of the client is given out once: it belongs to one request and to the job that request was for. -/
theorem C132_once (ops : List (CliOp D H)) (hn : ops.length + 1 < 2 ^ 64) (p p' : Nat) (id : Bytes) (j j' : Client.Job D) :
    BegunAt ops p id j → BegunAt ops p' id j' → p = p' ∧ j = j' := by
  rintro ⟨env, req, h1, h2, h3, h4, h5⟩ ⟨env', req', g1, g2, g3, g4, g5⟩
  have hp : p = p' := by
    rcases Nat.lt_trichotomy p p' with hl | hl | hl
    · have := cli_known hn h5 (p' - (p + 1))
      rw [show p + 1 + (p' - (p + 1)) = p' by omega, g4] at this
      cases this
    · exact hl
    · have := cli_known hn g5 (p - (p' + 1))
      rw [show p' + 1 + (p - (p' + 1)) = p by omega, h4] at this
      cases this
  subst hp
  rw [h1] at g1
  cases g1
  exact ⟨rfl, orders_once h2 g2⟩

end Verif
