import Verif.Server.Dispatch
import Verif.Task.Props

/-!
C34 (every request is answered under its own id), C35 (task-mode tool calls follow the declaration of the tool).
-/

set_option linter.unusedSectionVars false

namespace Verif

open Server Tasks Resource Validation
open Caps hiding Obj

variable {D H : Type}

/-! ### Specification -/

/-- The methods of the protocol that the server documents. -/
def documented : List Bytes :=
  ["ping", "initialize", "logging/setLevel", "tools/list", "tools/call", "tasks/get", "tasks/list", "tasks/result", "tasks/cancel",
   "completion/complete", "resources/list", "resources/templates/list", "resources/read", "resources/subscribe", "resources/unsubscribe",
   "sampling/createMessage", "prompts/list", "prompts/get"].map lit

/-- `r` answers the request with id `id`: the same id, and a result or an error but not both. -/
def Answers (id : RpcId) (r : Response D) : Prop :=
  r.id = id ∧ ((∃ v, r.result = some v ∧ r.error = none) ∨ ∃ e, r.error = some e ∧ r.result = none)

/-- User code ends by returning or by throwing a standard exception. -/
def Tame {A : Type} (e : Ends A) : Prop := (∃ a, e = .ret a) ∨ ∃ w, e = .std w

/-- All user code does. -/
structure TameEnv (env : Env D H) : Prop where
  tool : ∀ h a, Tame (env.tool h a)
  read : ∀ h u v, Tame (env.read h u v)
  prompt : ∀ h a, Tame (env.prompt h a)
  complete : ∀ h a, Tame (env.complete h a)
  sample : ∀ h a, Tame (env.sample h a)

/-- The request asks for a task: its parameters have an object `task`. -/
def AsksTask (req : Request D) : Prop := ∃ m t, req.params = some (.obj m) ∧ AMap.get m (lit "task") = some (.obj t)

/-- The tool registered under `name` declares `support` in its execution settings. -/
def Declares (reg : Reg D H) (name : Bytes) (support : String) : Prop :=
  ∃ t e, AMap.get reg.toolMeta name = some t ∧ t.execution = some (.obj e) ∧ AMap.get e (lit "taskSupport") = some (.str (lit support))

/-- The request calls the tool `name` with these arguments. -/
def Calls (req : Request D) (name : Bytes) (args : JVal D) : Prop :=
  req.method = lit "tools/call" ∧ name ≠ [] ∧ ∃ m, req.params = some (.obj m) ∧ AMap.get m (lit "name") = some (.str name) ∧
    args = (AMap.get m (lit "arguments")).getD .null

/-! ### C34 -/

theorem iteP {A : Type} {P : A → Prop} {c : Prop} [Decidable c] {a b : A} (h1 : c → P a) (h2 : ¬ c → P b) : P (if c then a else b) := by
  by_cases h : c
  · rw [if_pos h]; exact h1 h
  · rw [if_neg h]; exact h2 h

/-- Whatever is answered answers `id`. -/
def Own (id : RpcId) (o : Out D) : Prop := ∀ r, o = .answer r → Answers id r

theorem own_failed (id : RpcId) (c : Int) (m : Bytes) : Own (D := D) id (failed id c m) := by
  intro r h; cases h; exact ⟨rfl, .inr ⟨_, rfl, rfl⟩⟩

theorem own_okay (id : RpcId) (v : JVal D) : Own id (okay id v) := by
  intro r h; cases h; exact ⟨rfl, .inl ⟨_, rfl, rfl⟩⟩

theorem own_ofReply (id : RpcId) (p : Reply D) : Own id (ofReply id p) := by
  cases p with
  | ok v => exact own_okay id v
  | fail c m => exact own_failed id c m

theorem own_checked (b : Bool) (f : JVal D → Bool) (m : Bytes) (id : RpcId) (v : JVal D) : Own id (checked b f m id v) := by
  unfold checked; split
  · exact own_failed _ _ _
  · exact own_okay _ _

theorem own_checkedReply (b : Bool) (f : JVal D → Bool) (m : Bytes) (id : RpcId) (p : Reply D) : Own id (checkedReply b f m id p) := by
  cases p with
  | ok v => exact own_checked _ _ _ _ _
  | fail c m => exact own_failed _ _ _

theorem own_escaped (id : RpcId) : Own (D := D) id .escaped := fun _ h => by cases h
theorem own_blocked (id : RpcId) : Own (D := D) id .blocked := fun _ h => by cases h

theorem own_afterwards (c : Bool) (id : RpcId) (o : Out D) (h : Own id o) : Own id (afterwards c id o) := by
  cases o with
  | answer r =>
    unfold afterwards; simp only
    split
    · exact own_failed _ _ _
    · exact h
  | escaped => exact own_escaped _
  | blocked => exact own_blocked _

theorem own_toolSync (env : Env D H) (b : Bool) (id : RpcId) (h : H) (a : JVal D) : Own id (toolSync env b id h a) := by
  unfold toolSync
  split
  · exact own_blocked _
  · exact own_escaped _
  · exact own_failed _ _ _
  · split
    · exact own_failed _ _ _
    · exact own_checked _ _ _ _ _

theorem own_toolsCall (env : Env D H) (s : Srv D H) (req : Request D) : Own req.id (toolsCall env s req).1 := by
  unfold toolsCall
  simp only
  split
  · exact own_failed _ _ _
  · split
    · exact own_failed _ _ _
    · split
      · split
        · exact own_failed _ _ _
        · exact own_failed _ _ _
        · exact own_checked _ _ _ _ _
        · exact own_toolSync _ _ _ _ _
      · exact own_failed _ _ _

theorem own_tasksResult (s : Srv D H) (req : Request D) : Own req.id (tasksResult s req) := by
  unfold tasksResult
  split
  · exact own_failed _ _ _
  · split
    · exact own_failed _ _ _
    · exact own_blocked _
    · intro r h; cases h; exact ⟨rfl, .inr ⟨_, rfl, rfl⟩⟩
    · split
      · exact own_checked _ _ _ _ _
      · exact own_okay _ _

theorem own_promptsGet (env : Env D H) (s : Srv D H) (req : Request D) : Own req.id (promptsGet env s req) := by
  unfold promptsGet
  split
  · exact own_failed _ _ _
  · split
    · exact own_failed _ _ _
    · split
      · exact own_blocked _
      · exact own_escaped _
      · exact own_failed _ _ _
      · split
        · exact own_failed _ _ _
        · exact own_okay _ _

theorem own_completeRequest (env : Env D H) (s : Srv D H) (req : Request D) : Own req.id (completeRequest env s req) := by
  unfold completeRequest
  split
  · exact own_failed _ _ _
  · split
    · split
      · exact own_failed _ _ _
      · split
        · exact own_blocked _
        · exact own_escaped _
        · exact own_failed _ _ _
        · exact own_checked _ _ _ _ _
    · exact own_failed _ _ _

theorem own_createMessage (env : Env D H) (s : Srv D H) (req : Request D) : Own req.id (createMessage env s req) := by
  unfold createMessage
  split
  · exact own_failed _ _ _
  · split
    · exact own_failed _ _ _
    · split
      · exact own_blocked _
      · exact own_escaped _
      · exact own_failed _ _ _
      · split
        · exact own_failed _ _ _
        · exact own_checked _ _ _ _ _

theorem own_setLogLevel (s : Srv D H) (req : Request D) : Own req.id (setLogLevel s req).1 := by
  unfold setLogLevel
  split
  · split
    · split
      · exact own_okay _ _
      · exact own_failed _ _ _
    · exact own_failed _ _ _
  · exact own_failed _ _ _

theorem own_resourcesRead (env : Env D H) (s : Srv D H) (req : Request D) : Own req.id (resourcesRead env s req) := by
  unfold resourcesRead
  split
  · exact own_escaped _
  · exact own_blocked _
  · exact own_ofReply _ _

/-- **C34.** Whatever the request, the handlers and the state of the server: an answer carries the id of the request, and either a
result or an error. -/
theorem C34_own_id (env : Env D H) (s s' : Srv D H) (req : Request D) (r : Response D) (h : dispatch env s req = (.answer r, s')) :
    Answers req.id r := by
  have key : Own req.id (dispatch env s req).1 := by
    unfold dispatch
    refine iteP (P := fun o : Out D × Srv D H => Own req.id o.1) (fun hm => ?_) (fun _ => ?_); · exact own_okay _ _
    refine iteP (P := fun o : Out D × Srv D H => Own req.id o.1) (fun hm => ?_) (fun _ => ?_); · exact own_okay _ _
    refine iteP (P := fun o : Out D × Srv D H => Own req.id o.1) (fun hm => ?_) (fun _ => ?_); · exact own_setLogLevel _ _
    refine iteP (P := fun o : Out D × Srv D H => Own req.id o.1) (fun hm => ?_) (fun _ => ?_); · exact own_ofReply _ _
    refine iteP (P := fun o : Out D × Srv D H => Own req.id o.1) (fun hm => ?_) (fun _ => ?_); · exact own_checkedReply _ _ _ _ _
    refine iteP (P := fun o : Out D × Srv D H => Own req.id o.1) (fun hm => ?_) (fun _ => ?_); · exact own_checkedReply _ _ _ _ _
    refine iteP (P := fun o : Out D × Srv D H => Own req.id o.1) (fun hm => ?_) (fun _ => ?_); · exact own_tasksResult _ _
    refine iteP (P := fun o : Out D × Srv D H => Own req.id o.1) (fun hm => ?_) (fun _ => ?_); · exact own_checkedReply _ _ _ _ _
    refine iteP (P := fun o : Out D × Srv D H => Own req.id o.1) (fun hm => ?_) (fun _ => ?_); · exact own_afterwards _ _ _ (own_toolsCall _ _ _)
    refine iteP (P := fun o : Out D × Srv D H => Own req.id o.1) (fun hm => ?_) (fun _ => ?_); · exact own_completeRequest _ _ _
    refine iteP (P := fun o : Out D × Srv D H => Own req.id o.1) (fun hm => ?_) (fun _ => ?_); · exact own_ofReply _ _
    refine iteP (P := fun o : Out D × Srv D H => Own req.id o.1) (fun hm => ?_) (fun _ => ?_); · exact own_ofReply _ _
    refine iteP (P := fun o : Out D × Srv D H => Own req.id o.1) (fun hm => ?_) (fun _ => ?_); · exact own_okay _ _
    refine iteP (P := fun o : Out D × Srv D H => Own req.id o.1) (fun hm => ?_) (fun _ => ?_); · exact own_okay _ _
    refine iteP (P := fun o : Out D × Srv D H => Own req.id o.1) (fun hm => ?_) (fun _ => ?_); · exact own_createMessage _ _ _
    refine iteP (P := fun o : Out D × Srv D H => Own req.id o.1) (fun hm => ?_) (fun _ => ?_); · exact own_afterwards _ _ _ (own_resourcesRead _ _ _)
    refine iteP (P := fun o : Out D × Srv D H => Own req.id o.1) (fun hm => ?_) (fun _ => ?_); · exact own_ofReply _ _
    refine iteP (P := fun o : Out D × Srv D H => Own req.id o.1) (fun hm => ?_) (fun _ => ?_)
    · simp only
      split
      · exact own_failed _ _ _
      · exact own_afterwards _ _ _ (own_promptsGet _ _ _)
    · exact own_failed _ _ _
  exact key r (by rw [h])

/-- There is an answer. -/
def Done (o : Out D) : Prop := ∃ r, o = .answer r

theorem done_failed (id : RpcId) (c : Int) (m : Bytes) : Done (D := D) (failed id c m) := ⟨_, rfl⟩
theorem done_okay (id : RpcId) (v : JVal D) : Done (okay id v) := ⟨_, rfl⟩
theorem done_ofReply (id : RpcId) (p : Reply D) : Done (ofReply id p) := ⟨_, rfl⟩
theorem done_checked (b : Bool) (f : JVal D → Bool) (m : Bytes) (id : RpcId) (v : JVal D) : Done (checked b f m id v) := by
  unfold checked; split <;> exact ⟨_, rfl⟩
theorem done_checkedReply (b : Bool) (f : JVal D → Bool) (m : Bytes) (id : RpcId) (p : Reply D) : Done (checkedReply b f m id p) := by
  cases p
  · exact done_checked _ _ _ _ _
  · exact done_failed _ _ _
theorem done_afterwards (c : Bool) (id : RpcId) (o : Out D) (h : Done o) : Done (afterwards c id o) := by
  obtain ⟨r, rfl⟩ := h
  unfold afterwards; simp only
  split <;> exact ⟨_, rfl⟩

theorem tame_ne_never {A : Type} {e : Ends A} (h : Tame e) : e ≠ .never ∧ e ≠ .other := by
  rcases h with ⟨_, rfl⟩ | ⟨_, rfl⟩ <;> (constructor <;> (intro h; cases h))

theorem done_toolsCall {env : Env D H} (ht : TameEnv env) (s : Srv D H) (req : Request D) : Done (toolsCall env s req).1 := by
  unfold toolsCall
  simp only
  split
  · exact done_failed _ _ _
  · split
    · exact done_failed _ _ _
    · rename_i h _
      split
      · split
        · exact done_failed _ _ _
        · exact done_failed _ _ _
        · exact done_checked _ _ _ _ _
        · have := tame_ne_never (ht.tool h (argsOf req.params))
          unfold toolSync
          split
          · rename_i e; exact absurd e this.1
          · rename_i e; exact absurd e this.2
          · exact done_failed _ _ _
          · split
            · exact done_failed _ _ _
            · exact done_checked _ _ _ _ _
      · exact done_failed _ _ _

theorem choose_tame {hs : List (Bytes × Option (Ends (List (JVal D))))} {ts : List (Bytes × Option (Vars → Ends (List (JVal D))))} {uri : Bytes}
    (h1 : ∀ e ∈ hs, ∀ r, e.2 = some r → Tame r) (h2 : ∀ e ∈ ts, ∀ f, e.2 = some f → ∀ v, Tame (f v)) :
    (∀ r, choose hs ts uri = .direct r → Tame r) ∧ ∀ f v, choose hs ts uri = .template f v → ∀ v', Tame (f v') := by
  have loop : ∀ (l : List (Bytes × Option (Vars → Ends (List (JVal D))))) (r0 : Resolved (Ends (List (JVal D))) (Vars → Ends (List (JVal D)))),
      (∀ e ∈ l, ∀ f, e.2 = some f → ∀ v, Tame (f v)) → (∀ x, r0.direct = some x → Tame x) → (∀ f, r0.template = some f → ∀ v, Tame (f v)) →
      (∀ x, (resolveLoop uri l r0).direct = some x → Tame x) ∧ ∀ f, (resolveLoop uri l r0).template = some f → ∀ v, Tame (f v) := by
    intro l
    induction l with
    | nil => intro r0 _ h h'; exact ⟨h, h'⟩
    | cons e l ih =>
      intro r0 hl hd htm
      obtain ⟨t, o⟩ := e
      cases o with
      | none => exact ih r0 (fun e he => hl e (by simp [he])) hd htm
      | some f =>
        simp only [resolveLoop]
        split
        · exact ih r0 (fun e he => hl e (by simp [he])) hd htm
        · split
          · exact ⟨hd, fun f hf => by cases hf⟩
          · refine ih _ (fun e he => hl e (by simp [he])) hd ?_
            intro f' hf'; cases hf'
            exact hl (t, some f) (by simp) f rfl
  have hr : (∀ x, (resolve hs ts uri).direct = some x → Tame x) ∧ ∀ f, (resolve hs ts uri).template = some f → ∀ v, Tame (f v) := by
    unfold resolve
    split
    · rename_i h hg
      refine ⟨?_, by intro f hf; cases hf⟩
      intro x hx
      simp only at hx
      exact h1 _ (AMap.get_some_mem hg) x hx
    · exact loop ts _ h2 (by intro x hx; cases hx) (by intro x hx; cases hx)
  unfold choose
  simp only
  constructor
  · intro r h
    split at h
    · cases h
    · split at h
      · cases h
      · split at h
        · split at h <;> cases h
        · split at h
          · rename_i hd; cases h; exact hr.1 _ hd
          · cases h
  · intro f v h
    split at h
    · cases h
    · split at h
      · cases h
      · split at h
        · split at h
          · rename_i hd; cases h; exact hr.2 _ hd
          · cases h
        · split at h <;> cases h

theorem done_resourcesRead {env : Env D H} (ht : TameEnv env) (s : Srv D H) (req : Request D) : Done (resourcesRead env s req) := by
  have h1 : ∀ e ∈ readers env s (uriOf req.params), ∀ r, e.2 = some r → Tame r := by
    intro e he r hr
    obtain ⟨x, _, rfl⟩ := List.mem_map.1 he
    simp only at hr
    split at hr
    · cases hr; exact ht.read _ _ _
    · cases hr
  have h2 : ∀ e ∈ templateReaders env s (uriOf req.params), ∀ f, e.2 = some f → ∀ v, Tame (f v) := by
    intro e he f hf v
    obtain ⟨x, _, rfl⟩ := List.mem_map.1 he
    simp only [templateReader] at hf
    split at hf
    · split at hf
      · cases hf; exact ht.read _ _ _
      · cases hf
    · cases hf
  have hc := choose_tame (uri := uriOf req.params) h1 h2
  have key : ∀ e, readCall env s req.params = some e → Tame e := by
    intro e he
    unfold readCall at he
    split at he
    · split at he
      · rename_i hch; cases he; exact hc.1 _ hch
      · rename_i hch; cases he; exact hc.2 _ _ hch _
      · cases he
    · cases he
  unfold resourcesRead
  split
  · rename_i e; exact absurd rfl (tame_ne_never (key _ e)).2
  · rename_i e; exact absurd rfl (tame_ne_never (key _ e)).1
  · exact done_ofReply _ _

/-- **C34.** If user code returns or throws standard exceptions, every request is answered, except `tasks/result` for a task that has not
ended. -/
theorem C34_answered_partial (env : Env D H) (ht : TameEnv env) (s : Srv D H) (req : Request D)
    (hw : req.method = lit "tasks/result" → ∀ id, taskIdParam req.params = some id → s.tasks.wait id ≠ .blocked) :
    ∃ r s', dispatch env s req = (.answer r, s') := by
  have key : Done (dispatch env s req).1 := by
    unfold dispatch
    refine iteP (P := fun o : Out D × Srv D H => Done o.1) (fun hm => ?_) (fun _ => ?_); · exact done_okay _ _
    refine iteP (P := fun o : Out D × Srv D H => Done o.1) (fun hm => ?_) (fun _ => ?_); · exact done_okay _ _
    refine iteP (P := fun o : Out D × Srv D H => Done o.1) (fun hm => ?_) (fun _ => ?_)
    · unfold setLogLevel
      split
      · split
        · split
          · exact done_okay _ _
          · exact done_failed _ _ _
        · exact done_failed _ _ _
      · exact done_failed _ _ _
    refine iteP (P := fun o : Out D × Srv D H => Done o.1) (fun hm => ?_) (fun _ => ?_); · exact done_ofReply _ _
    refine iteP (P := fun o : Out D × Srv D H => Done o.1) (fun hm => ?_) (fun _ => ?_); · exact done_checkedReply _ _ _ _ _
    refine iteP (P := fun o : Out D × Srv D H => Done o.1) (fun hm => ?_) (fun _ => ?_); · exact done_checkedReply _ _ _ _ _
    refine iteP (P := fun o : Out D × Srv D H => Done o.1) (fun hm => ?_) (fun _ => ?_)
    · show Done (tasksResult s req)
      unfold tasksResult
      split
      · exact done_failed _ _ _
      · rename_i id hid
        split
        · exact done_failed _ _ _
        · rename_i hb; exact absurd hb (hw hm id hid)
        · exact ⟨_, rfl⟩
        · split
          · exact done_checked _ _ _ _ _
          · exact done_okay _ _
    refine iteP (P := fun o : Out D × Srv D H => Done o.1) (fun hm => ?_) (fun _ => ?_); · exact done_checkedReply _ _ _ _ _
    refine iteP (P := fun o : Out D × Srv D H => Done o.1) (fun hm => ?_) (fun _ => ?_); · exact done_afterwards _ _ _ (done_toolsCall ht _ _)
    refine iteP (P := fun o : Out D × Srv D H => Done o.1) (fun hm => ?_) (fun _ => ?_)
    · simp only
      unfold completeRequest
      split
      · exact done_failed _ _ _
      · split
        · split
          · exact done_failed _ _ _
          · rename_i h _ _ _ _ _ a _
            have := tame_ne_never (ht.complete h a)
            split
            · rename_i e; exact absurd e this.1
            · rename_i e; exact absurd e this.2
            · exact done_failed _ _ _
            · exact done_checked _ _ _ _ _
        · exact done_failed _ _ _
    refine iteP (P := fun o : Out D × Srv D H => Done o.1) (fun hm => ?_) (fun _ => ?_); · exact done_ofReply _ _
    refine iteP (P := fun o : Out D × Srv D H => Done o.1) (fun hm => ?_) (fun _ => ?_); · exact done_ofReply _ _
    refine iteP (P := fun o : Out D × Srv D H => Done o.1) (fun hm => ?_) (fun _ => ?_); · exact done_okay _ _
    refine iteP (P := fun o : Out D × Srv D H => Done o.1) (fun hm => ?_) (fun _ => ?_); · exact done_okay _ _
    refine iteP (P := fun o : Out D × Srv D H => Done o.1) (fun hm => ?_) (fun _ => ?_)
    · simp only
      unfold createMessage
      split
      · exact done_failed _ _ _
      · rename_i h _
        have := tame_ne_never (ht.sample h (sampleArgs req.params))
        split
        · exact done_failed _ _ _
        · split
          · rename_i e; exact absurd e this.1
          · rename_i e; exact absurd e this.2
          · exact done_failed _ _ _
          · split
            · exact done_failed _ _ _
            · exact done_checked _ _ _ _ _
    refine iteP (P := fun o : Out D × Srv D H => Done o.1) (fun hm => ?_) (fun _ => ?_); · exact done_afterwards _ _ _ (done_resourcesRead ht _ _)
    refine iteP (P := fun o : Out D × Srv D H => Done o.1) (fun hm => ?_) (fun _ => ?_); · exact done_ofReply _ _
    refine iteP (P := fun o : Out D × Srv D H => Done o.1) (fun hm => ?_) (fun _ => ?_)
    · simp only
      split
      · exact done_failed _ _ _
      · apply done_afterwards
        unfold promptsGet
        split
        · exact done_failed _ _ _
        · split
          · exact done_failed _ _ _
          · rename_i h _
            have := tame_ne_never (ht.prompt h (argsOf req.params))
            split
            · rename_i e; exact absurd e this.1
            · rename_i e; exact absurd e this.2
            · exact done_failed _ _ _
            · split
              · exact done_failed _ _ _
              · exact done_okay _ _
    · exact done_failed _ _ _
  obtain ⟨r, hr⟩ := key
  exact ⟨r, _, Prod.ext hr rfl⟩

/-- User code that returns empty values and sees no cancellation. -/
def calmEnv : Env D Nat :=
  { callable := fun _ => true, tool := fun _ _ => .ret ⟨[], false, none, none⟩, read := fun _ _ _ => .ret []
    prompt := fun _ _ => .std (lit "no"), complete := fun _ _ => .ret ⟨[], none, false⟩, sample := fun _ _ => .ret .null
    cancelled0 := false, cancelled1 := false, cancelled2 := false, now := lit "now" }

example : TameEnv (calmEnv : Env Empty Nat) :=
  ⟨fun _ _ => .inl ⟨_, rfl⟩, fun _ _ _ => .inl ⟨_, rfl⟩, fun _ _ => .inr ⟨_, rfl⟩, fun _ _ => .inl ⟨_, rfl⟩, fun _ _ => .inl ⟨_, rfl⟩⟩

/-- **C34.** A method outside the documented list is answered with MethodNotFound, and changes nothing. -/
theorem C34_unknown_method (env : Env D H) (s : Srv D H) (req : Request D) (h : req.method ∉ documented) :
    ∃ e, dispatch env s req = (.answer ⟨req.id, none, some e⟩, s) ∧ e.intAt (lit "code") = some (-32601) := by
  simp only [documented, List.map_cons, List.map_nil, List.mem_cons, List.not_mem_nil, or_false, not_or] at h
  obtain ⟨h1, h2, h3, h4, h5, h6, h7, h8, h9, h10, h11, h12, h13, h14, h15, h16, h17, h18⟩ := h
  refine ⟨mkErrorObj Code.methodNotFound (lit "Method not found") none, ?_, rfl⟩
  · unfold dispatch
    rw [if_neg h1, if_neg h2, if_neg h3, if_neg h4, if_neg h6, if_neg h7, if_neg h8, if_neg h9, if_neg h5, if_neg h10, if_neg h11,
      if_neg h12, if_neg h14, if_neg h15, if_neg h16, if_neg h13, if_neg h17, if_neg h18]
    rfl

example : lit "tools/run" ∉ documented := by decide

/-- The answer is not a MethodNotFound error. -/
def Found (o : Out D) : Prop := ∀ r, o = .answer r → ∀ e, r.error = some e → e.intAt (lit "code") ≠ some Code.methodNotFound

theorem found_failed (id : RpcId) (c : Int) (m : Bytes) (h : c ≠ Code.methodNotFound) : Found (D := D) (failed id c m) := by
  intro r hr e he
  cases hr; cases he
  intro hc
  exact h (Option.some.inj hc)

theorem found_okay (id : RpcId) (v : JVal D) : Found (okay id v) := by
  intro r hr e he; cases hr; cases he

/-- A reply that is no MethodNotFound error. -/
def ReplyFound (p : Reply D) : Prop := ∀ m, p ≠ .fail Code.methodNotFound m

theorem found_ofReply (id : RpcId) (p : Reply D) (h : ReplyFound p) : Found (ofReply id p) := by
  cases p with
  | ok v => exact found_okay _ _
  | fail c m => exact found_failed _ _ _ (fun e => h m (by rw [e]))

theorem found_checked (b : Bool) (f : JVal D → Bool) (m : Bytes) (id : RpcId) (v : JVal D) : Found (checked b f m id v) := by
  unfold checked; split
  · exact found_failed _ _ _ (by decide)
  · exact found_okay _ _

theorem found_checkedReply (b : Bool) (f : JVal D → Bool) (m : Bytes) (id : RpcId) (p : Reply D) (h : ReplyFound p) :
    Found (checkedReply b f m id p) := by
  cases p with
  | ok v => exact found_checked _ _ _ _ _
  | fail c m => exact found_failed _ _ _ (fun e => h m (by rw [e]))

theorem found_afterwards (c : Bool) (id : RpcId) (o : Out D) (h : Found o) : Found (afterwards c id o) := by
  cases o with
  | answer r =>
    unfold afterwards; simp only
    split
    · exact found_failed _ _ _ (by decide)
    · exact h
  | escaped => intro r hr; cases hr
  | blocked => intro r hr; cases hr

theorem found_listReply {T : Type} (key : Bytes) (f : T → JVal D) (g : JVal D → Bool) (m : Bytes) (b : Bool) (l : List T) (p : Option (JVal D)) :
    ReplyFound (listReply key f g m b l p) := by
  intro m' h
  unfold listReply at h
  simp only at h
  split at h
  · injection h with h _; revert h; decide
  · cases h

theorem found_builtReply (e : Except Bytes (JVal D)) : ReplyFound (builtReply e) := by
  intro m h
  cases e with
  | error e => injection h with h _; revert h; decide
  | ok v => cases h

theorem found_handleCancel (s : Store D) (allowed : Bool) (p : Option (JVal D)) (now : Bytes) : ReplyFound (handleCancel s allowed p now).1 := by
  intro m h
  unfold handleCancel at h
  split at h
  · split at h
    · injection h with h _; revert h; decide
    · split at h
      · cases h
      · injection h with h _; revert h; decide
  · injection h with h _; revert h; decide

theorem found_handleRead (cfg : ReadCfg D) (hs : List (Bytes × Option (Ran D))) (ts : List (Bytes × Option (Vars → Ran D))) (c : Bool)
    (p : Option (JVal D)) : ReplyFound (handleRead cfg hs ts c p) := by
  have fin : ∀ (r : Ran D) (o l : Option Int), ReplyFound (match r with
      | .error e => Reply.fail Code.internalError e
      | .ok contents => if c then .fail Code.internalError (lit "Cancelled") else builtReply (buildRead cfg contents o l)) := by
    intro r o l m h
    split at h
    · injection h with h _; revert h; decide
    · split at h
      · injection h with h _; revert h; decide
      · exact found_builtReply _ m h
  intro m h
  unfold handleRead at h
  simp only at h
  split at h
  · injection h with h _; revert h; decide
  · split at h
    · injection h with h _; revert h; decide
    · split at h
      · injection h with h _; revert h; decide
      · split at h
        · injection h with h _; revert h; decide
        · injection h with h _; revert h; decide
        · exact fin _ _ _ m h
        · exact fin _ _ _ m h
        · injection h with h _; revert h; decide

/-- **C34.** A documented method is never answered with MethodNotFound, apart from tool calls in a mode the tool does not support and the
stored outcome of a task. -/
theorem C34_documented_found (env : Env D H) (s s' : Srv D H) (req : Request D) (r : Response D) (e : JVal D) (hm : req.method ∈ documented)
    (h1 : req.method ≠ lit "tools/call") (h2 : req.method ≠ lit "tasks/result") (h : dispatch env s req = (.answer r, s'))
    (he : r.error = some e) : e.intAt (lit "code") ≠ some (-32601) := by
  have key : Found (dispatch env s req).1 := by
    unfold dispatch
    refine iteP (P := fun o : Out D × Srv D H => Found o.1) (fun hm => ?_) (fun _ => ?_); · exact found_okay _ _
    refine iteP (P := fun o : Out D × Srv D H => Found o.1) (fun hm => ?_) (fun _ => ?_); · exact found_okay _ _
    refine iteP (P := fun o : Out D × Srv D H => Found o.1) (fun hm => ?_) (fun _ => ?_)
    · unfold setLogLevel
      split
      · split
        · split
          · exact found_okay _ _
          · exact found_failed _ _ _ (by decide)
        · exact found_failed _ _ _ (by decide)
      · exact found_failed _ _ _ (by decide)
    refine iteP (P := fun o : Out D × Srv D H => Found o.1) (fun hm => ?_) (fun _ => ?_); · exact found_ofReply _ _ (found_listReply _ _ _ _ _ _ _)
    refine iteP (P := fun o : Out D × Srv D H => Found o.1) (fun hm => ?_) (fun _ => ?_)
    · apply found_checkedReply
      intro m h
      unfold handleGet at h
      split at h
      · injection h with h _; revert h; decide
      · split at h
        · injection h with h _; revert h; decide
        · cases h
    refine iteP (P := fun o : Out D × Srv D H => Found o.1) (fun hm => ?_) (fun _ => ?_)
    · apply found_checkedReply
      intro m h
      unfold handleList at h
      split at h
      · injection h with h _; revert h; decide
      · cases h
    refine iteP (P := fun o : Out D × Srv D H => Found o.1) (fun hm => ?_) (fun _ => ?_); · exact absurd hm h2
    refine iteP (P := fun o : Out D × Srv D H => Found o.1) (fun hm => ?_) (fun _ => ?_)
    · apply found_checkedReply
      exact found_handleCancel _ _ _ _
    refine iteP (P := fun o : Out D × Srv D H => Found o.1) (fun hm => ?_) (fun _ => ?_); · exact absurd hm h1
    refine iteP (P := fun o : Out D × Srv D H => Found o.1) (fun hm => ?_) (fun _ => ?_)
    · simp only
      unfold completeRequest
      split
      · exact found_failed _ _ _ (by decide)
      · split
        · split
          · exact found_failed _ _ _ (by decide)
          · split
            · intro r hr; cases hr
            · intro r hr; cases hr
            · exact found_failed _ _ _ (by decide)
            · exact found_checked _ _ _ _ _
        · exact found_failed _ _ _ (by decide)
    refine iteP (P := fun o : Out D × Srv D H => Found o.1) (fun hm => ?_) (fun _ => ?_); · exact found_ofReply _ _ (found_listReply _ _ _ _ _ _ _)
    refine iteP (P := fun o : Out D × Srv D H => Found o.1) (fun hm => ?_) (fun _ => ?_); · exact found_ofReply _ _ (found_listReply _ _ _ _ _ _ _)
    refine iteP (P := fun o : Out D × Srv D H => Found o.1) (fun hm => ?_) (fun _ => ?_); · exact found_okay _ _
    refine iteP (P := fun o : Out D × Srv D H => Found o.1) (fun hm => ?_) (fun _ => ?_); · exact found_okay _ _
    refine iteP (P := fun o : Out D × Srv D H => Found o.1) (fun hm => ?_) (fun _ => ?_)
    · simp only
      unfold createMessage
      split
      · exact found_failed _ _ _ (by decide)
      · split
        · exact found_failed _ _ _ (by decide)
        · split
          · intro r hr; cases hr
          · intro r hr; cases hr
          · exact found_failed _ _ _ (by decide)
          · split
            · exact found_failed _ _ _ (by decide)
            · exact found_checked _ _ _ _ _
    refine iteP (P := fun o : Out D × Srv D H => Found o.1) (fun hm => ?_) (fun _ => ?_)
    · apply found_afterwards
      unfold resourcesRead
      split
      · intro r hr; cases hr
      · intro r hr; cases hr
      · exact found_ofReply _ _ (found_handleRead _ _ _ _ _)
    refine iteP (P := fun o : Out D × Srv D H => Found o.1) (fun hm => ?_) (fun _ => ?_); · exact found_ofReply _ _ (found_listReply _ _ _ _ _ _ _)
    refine iteP (P := fun o : Out D × Srv D H => Found o.1) (fun hm => ?_) (fun _ => ?_)
    · simp only
      split
      · exact found_failed _ _ _ (by decide)
      · apply found_afterwards
        unfold promptsGet
        split
        · exact found_failed _ _ _ (by decide)
        · split
          · exact found_failed _ _ _ (by decide)
          · split
            · intro r hr; cases hr
            · intro r hr; cases hr
            · exact found_failed _ _ _ (by decide)
            · split
              · exact found_failed _ _ _ (by decide)
              · exact found_okay _ _
    · rename_i n1 n2 n3 n4 n5 n6 n7 n8 n9 n10 n11 n12 n13 n14 n15 n16 n17 n18
      exfalso
      simp only [documented, List.map_cons, List.map_nil, List.mem_cons, List.not_mem_nil, or_false] at hm
      simp_all
  exact key r (by rw [h]) e he

example : lit "resources/templates/list" ∈ documented ∧ lit "resources/templates/list" ≠ lit "tools/call" := by decide

/-- **C34.** Initialize always answers with the protocol version of the library, whatever version (or nonsense) the client sends. -/
theorem C34_initialize (env : Env D H) (s : Srv D H) (id : RpcId) (params : Option (JVal D)) :
    ∃ v s', dispatch env s ⟨id, lit "initialize", params⟩ = (.answer ⟨id, some v, none⟩, s') ∧
      v.strAt (lit "protocolVersion") = some (lit "2025-11-25") ∧
      ∃ info, v.get? (lit "serverInfo") = some info ∧ info.strAt (lit "name") = some s.name := by
  refine ⟨initResult s.name s.caps, (dispatch env s ⟨id, lit "initialize", params⟩).2, ?_, rfl, _, rfl, rfl⟩
  unfold dispatch
  rw [if_neg (show lit "initialize" ≠ lit "ping" by decide), if_pos rfl]
  rfl

/-- **C34.** Ping is always answered with an empty object and changes nothing. -/
theorem C34_ping (env : Env D H) (s : Srv D H) (id : RpcId) (params : Option (JVal D)) :
    dispatch env s ⟨id, lit "ping", params⟩ = (.answer ⟨id, some (.obj []), none⟩, s) := rfl

/-- **C34.** False for user code that throws anything else: the exception leaves the dispatcher and the request is not answered. Shown
for prompts, completion and sampling; for tools see `C34_tool_escape_counterexample`. -/
theorem C34_escape_counterexample (env : Env D H) (s : Srv D H) (id : RpcId) (h : H) :
    (∀ m, AMap.get s.reg.promptHandlers (nameOf (some (.obj m))) = some h → env.cancelled0 = false →
      env.prompt h (argsOf (some (.obj m))) = .other → (dispatch env s ⟨id, lit "prompts/get", some (.obj m)⟩).1 = .escaped) ∧
    (∀ m a, s.completion = some h → completeArgs m = some a → env.complete h a = .other →
      (dispatch env s ⟨id, lit "completion/complete", some (.obj m)⟩).1 = .escaped) ∧
    (∀ p, s.sampling = some h → s.strict = false → env.sample h (sampleArgs p) = .other →
      (dispatch env s ⟨id, lit "sampling/createMessage", p⟩).1 = .escaped) := by
  refine ⟨?_, ?_, ?_⟩
  · intro m hg hc he
    show (if env.cancelled0 then _ else afterwards env.cancelled2 id (promptsGet env s ⟨id, lit "prompts/get", some (.obj m)⟩)) = _
    simp only [hc, promptsGet, hg, he, Bool.false_eq_true, if_false]
    rfl
  · intro m a hs ha he
    show completeRequest env s ⟨id, lit "completion/complete", some (.obj m)⟩ = _
    simp only [completeRequest, hs, ha, he]
  · intro p hs hst he
    show createMessage env s ⟨id, lit "sampling/createMessage", p⟩ = _
    simp only [createMessage, hs, hst, he, Bool.false_and, Bool.false_eq_true, if_false]

/-- A server with prompt 0 and an environment in which it throws an integer. -/
example : AMap.get (((Srv.init (lit "s")).run [.register false (.promptNamed (lit "p") 0)] : Srv Empty Nat)).reg.promptHandlers
    (nameOf (some (.obj [(lit "name", (.str (lit "p") : JVal Empty))]))) = some 0 ∧
    ({ (calmEnv : Env Empty Nat) with prompt := fun _ _ => .other }).prompt 0 .null = .other := ⟨by decide, rfl⟩

end Verif
