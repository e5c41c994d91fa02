import Verif.Whole.Props
import Verif.Server.TaskOriginProps
import Verif.Client.CallProps

/-!
C131: what a client is given for a task, for any way in which requests come to the server.
-/

namespace Verif.Whole

open Verif.Await Verif.Client Verif.Server Verif.Tasks

variable {D H : Type} [DblFmt D]

/-! ### Specification -/

/-- `v` is what a handler returned, with nothing changed but the metadata that names task `id`. -/
def Delivered (id : Bytes) (t : ToolRes D) (v : JVal D) : Prop :=
  v.get? (lit "content") = some (.arr t.content) ∧ v.get? (lit "isError") = some (.bool t.isError) ∧ v.get? (lit "structuredContent") = t.structured ∧
    ∃ rel, v.get? (lit "_meta") = some (.obj rel) ∧ AMap.get rel (lit "modelcontextprotocol.io/related-task") = some (.obj [(lit "taskId", .str id)]) ∧
      ∀ o, t.meta_ = some (.obj o) → ∀ k, k ≠ lit "modelcontextprotocol.io/related-task" → AMap.get rel k = AMap.get o k

theorem delivered_attach (id : Bytes) (t : ToolRes D) : Delivered id t (attachResult (toolResultJson t) id) := by
  obtain ⟨g1, g2, g3, g4, -⟩ := toolResult_get t
  have ho : ∃ m, toolResultJson t = .obj m := by
    unfold JVal.get? at g1
    split at g1
    · exact ⟨_, by assumption⟩
    · cases g1
  obtain ⟨m, hm⟩ := ho
  rw [hm] at g1 g2 g3 g4 ⊢
  obtain ⟨m0, m', rel, e0, e1, h1, h2, h3, h4⟩ := attachResult_spec id m
  cases e0
  rw [e1]
  refine ⟨(h1 _ (by decide)).trans g1, (h1 _ (by decide)).trans g2, (h1 _ (by decide)).trans g3, rel, h2, h3, fun o ho => ?_⟩
  exact h4 o (by rw [← ho]; exact g4)

/-! ### What the server does, step by step -/

variable {W O X S : Type}

/-- What an execution does to a part of the world. -/
def srvTrace (step : W → O → W) (f : W → O → List X) : W → List O → List X
  | _, [] => []
  | w, op :: ops => f w op ++ srvTrace step f (step w op) ops

theorem srvTrace_append (step : W → O → W) (f : W → O → List X) (a b : List O) : ∀ w,
    srvTrace step f w (a ++ b) = srvTrace step f w a ++ srvTrace step f (a.foldl step w) b := by
  induction a with
  | nil => intro w; rfl
  | cons op a ih => intro w; simp only [List.cons_append, srvTrace, List.foldl_cons, ih, List.append_assoc]

theorem srvTrace_state {step : W → O → W} {f : W → O → List X} {st : S → X → S} {srv : W → S} (h : ∀ w op, srv (step w op) = (f w op).foldl st (srv w)) (ops : List O) :
    ∀ w, srv (ops.foldl step w) = (srvTrace step f w ops).foldl st (srv w) := by
  induction ops with
  | nil => intro w; rfl
  | cons op ops ih => intro w; rw [List.foldl_cons, ih, h, srvTrace, List.foldl_append]

theorem srvTrace_srv {step : W → O → W} {f : W → O → List (SrvOp D H)} {srv : W → Srv D H} (h : ∀ w op, srv (step w op) = (srv w).run (f w op)) (ops : List O) (w : W) :
    srv (ops.foldl step w) = (srv w).run (srvTrace step f w ops) := srvTrace_state (st := Srv.step) h ops w

theorem srvTrace_length {step : W → O → W} {f : W → O → List X} (h : ∀ w op, (f w op).length ≤ 1) (ops : List O) :
    ∀ w, (srvTrace step f w ops).length ≤ ops.length := by
  induction ops with
  | nil => intro w; exact Nat.le_refl _
  | cons op ops ih =>
    intro w
    have h1 := ih (step w op)
    have h2 := h w op
    simp only [srvTrace, List.length_append, List.length_cons]
    omega

theorem srvTrace_split (step : W → O → W) (f : W → O → List X) (w : W) (ops : List O) (p : Nat) {op : O} (h : ops[p]? = some op) :
    srvTrace step f w ops = srvTrace step f w (ops.take p) ++ (f ((ops.take p).foldl step w) op ++ srvTrace step f (step ((ops.take p).foldl step w) op) (ops.drop (p + 1))) := by
  have hd : ops = ops.take p ++ op :: ops.drop (p + 1) := by
    obtain ⟨hl, he⟩ := List.getElem?_eq_some_iff.1 h
    conv => lhs; rw [← List.take_append_drop p ops]
    rw [List.drop_eq_getElem_cons hl, he]
  conv => lhs; rw [hd]
  rw [srvTrace_append]
  rfl

/-- A step of the execution that is one step of the part. -/
theorem srvTrace_place {step : W → O → W} {f : W → O → List X} {w : W} {ops : List O} {p : Nat} {op : O} {sop : X} (h : ops[p]? = some op)
    (hf : f ((ops.take p).foldl step w) op = [sop]) :
    (srvTrace step f w ops)[(srvTrace step f w (ops.take p)).length]? = some sop ∧
      (srvTrace step f w ops).take (srvTrace step f w (ops.take p)).length = srvTrace step f w (ops.take p) := by
  rw [srvTrace_split step f w ops p h, hf]
  constructor
  · rw [List.getElem?_append_right (Nat.le_refl _), Nat.sub_self]; rfl
  · rw [List.take_append_of_le_length (Nat.le_refl _), List.take_length]

/-- A step of the part was a step of the execution. -/
theorem srvTrace_from {step : W → O → W} {f : W → O → List X} (hf : ∀ w op, (f w op).length ≤ 1) (ops : List O) : ∀ {w : W} {n : Nat} {sop : X},
    (srvTrace step f w ops)[n]? = some sop →
      ∃ p op, ops[p]? = some op ∧ f ((ops.take p).foldl step w) op = [sop] ∧ n = (srvTrace step f w (ops.take p)).length := by
  induction ops with
  | nil => intro w n sop h; cases h
  | cons op ops ih =>
    intro w n sop h
    rw [srvTrace] at h
    cases hl : f w op with
    | nil =>
      rw [hl, List.nil_append] at h
      obtain ⟨p, o, h1, h2, h3⟩ := ih h
      refine ⟨p + 1, o, h1, h2, ?_⟩
      rw [List.take_succ_cons, srvTrace, hl]; exact h3
    | cons s0 rest =>
      have hr : rest = [] := by
        have := hf w op
        rw [hl, List.length_cons] at this
        exact List.length_eq_zero_iff.1 (by omega)
      subst hr
      rw [hl] at h
      cases n with
      | zero => cases h; exact ⟨0, op, rfl, hl, rfl⟩
      | succ n =>
        obtain ⟨p, o, h1, h2, h3⟩ := ih h
        refine ⟨p + 1, o, h1, h2, ?_⟩
        rw [List.take_succ_cons, srvTrace, hl, List.length_append, ← h3]
        simp [Nat.add_comm]

theorem srvTrace_mono (step : W → O → W) (f : W → O → List X) (w : W) (ops : List O) {p q : Nat} (h : p ≤ q) :
    (srvTrace step f w (ops.take p)).length ≤ (srvTrace step f w (ops.take q)).length := by
  have : ops.take q = ops.take p ++ (ops.take q).drop p := by
    conv => lhs; rw [← List.take_append_drop p (ops.take q)]
    rw [List.take_take, Nat.min_eq_left h]
  rw [this, srvTrace_append, List.length_append]
  omega

/-! ### The two requests of a task -/

theorem nameOf_task (name : Bytes) (args : JVal D) (ttl : Option Int) : nameOf (some (taskCallParams name args ttl)) = name := rfl
theorem argsOf_task (name : Bytes) (args : JVal D) (ttl : Option Int) : argsOf (some (taskCallParams name args ttl)) = args := rfl

/-- The request for a task gave a task: then a task was started. -/
theorem created_start {name : Bytes} {ops : List (SrvOp D H)} (hn : ops.length + 1 < 2 ^ 64) {p : Nat} {env : Env D H} {id id' : RpcId} {tool : Bytes} {args : JVal D}
    {ttl : Option Int} {r : Response D} {strict : Bool} {t : Task} {m : Option (JVal D)}
    (hp : ops[p]? = some (.request env ⟨id, lit "tools/call", some (taskCallParams tool args ttl)⟩))
    (hr : (dispatch env (srvAt name ops p) ⟨id, lit "tools/call", some (taskCallParams tool args ttl)⟩).1 = .answer r)
    (ht : callToolTask strict [] (.resp ⟨id', r.result, r.error⟩) = .ok (t, m)) :
    ∃ h, StartedAt name ops p t.taskId tool args h := by
  have hlt : p < ops.length := (List.getElem?_eq_some_iff.1 hp).1
  have hd := dispatch_tools env (srvAt name ops p) ⟨id, lit "tools/call", some (taskCallParams tool args ttl)⟩ rfl
  rw [hd] at hr
  have herr : ∀ code msg, r ≠ ⟨id, none, some (mkErrorObj code msg none)⟩ := by
    rintro code msg rfl
    cases ht
  rcases afterwards_cases _ _ _ _ hr with ⟨-, rfl⟩ | ⟨-, hr⟩
  · exact absurd rfl (herr _ _)
  obtain ⟨k0, -, hi⟩ := (srvGood_reach (D := D) (H := H) name (ops.take p) (by rw [List.length_take]; omega)).store
  have hf := fresh_id hi
  have hsucc := srvAt_succ (name := name) hp
  have hstep : (srvAt name ops p).step (.request env ⟨id, lit "tools/call", some (taskCallParams tool args ttl)⟩) =
    (toolsCall env (srvAt name ops p) ⟨id, lit "tools/call", some (taskCallParams tool args ttl)⟩).2 := by
    show (dispatch env (srvAt name ops p) _).2 = _
    rw [hd]
  -- the answer is that of a started task
  have htask : taskMeta (some (taskCallParams tool args ttl)) ≠ none := by cases ttl <;> exact nofun
  have hfail : ∀ c msg, failed (D := D) id c msg ≠ .answer r := by
    intro c msg h
    cases h
    exact herr _ _ rfl
  have key : ∃ h ttl', tool ≠ [] ∧ AMap.get (srvAt name ops p).reg.toolHandlers tool = some h ∧
      toolsCall env (srvAt name ops p) ⟨id, lit "tools/call", some (taskCallParams tool args ttl)⟩ =
      (checked (srvAt name ops p).strict Validation.validateCreateTaskResult (lit "Invalid task creation result shape") id
          (serCreate ((srvAt name ops p).tasks.create .toolCall ttl' env.now).1 none),
        { srvAt name ops p with tasks := ((srvAt name ops p).tasks.create .toolCall ttl' env.now).2
                                workers := (srvAt name ops p).workers ++ [(((srvAt name ops p).tasks.create .toolCall ttl' env.now).1.taskId, h, args)]
                                runs := (srvAt name ops p).runs ++ [.task tool args ((srvAt name ops p).tasks.create .toolCall ttl' env.now).1.taskId] }) := by
    rcases toolsCall_cases env (srvAt name ops p) ⟨id, lit "tools/call", some (taskCallParams tool args ttl)⟩ with h1 | ⟨nm, h, -, -, -, -, c5, -, -⟩ | ⟨nm, h, ttl', c1, c2, c3, -, -, -, he⟩
    · exfalso
      simp only [toolsCall, nameOf_task, argsOf_task] at hr h1
      by_cases hz : tool = []
      · simp only [hz, if_true] at hr; exact hfail _ _ hr
      · simp only [hz, if_false] at hr h1
        cases hh : AMap.get (srvAt name ops p).reg.toolHandlers tool with
        | none => rw [hh] at hr; exact hfail _ _ hr
        | some h =>
          rw [hh] at hr h1
          dsimp only at hr h1
          by_cases hcall : env.callable h = true
          · rw [if_pos hcall] at hr h1
            cases hm : taskMeta (some (taskCallParams tool args ttl)) with
            | none => exact htask hm
            | some tt =>
              rw [hm] at hr h1
              cases hs : supportOf (AMap.get (srvAt name ops p).reg.toolMeta tool) with
              | forbidden => rw [hs] at hr; exact hfail _ _ hr
              | optional =>
                rw [hs] at h1
                have := congrArg (fun s : Srv D H => s.runs.length) h1
                simp at this
              | required =>
                rw [hs] at h1
                have := congrArg (fun s : Srv D H => s.runs.length) h1
                simp at this
          · rw [if_neg hcall] at hr; exact hfail _ _ hr
    · exact absurd c5 htask
    · have e1 : nm = tool := c1.symm
      subst e1
      exact ⟨h, ttl', c2, c3, he⟩
  obtain ⟨h, ttl', c2, c3, he⟩ := key
  rw [he] at hr
  simp only [checked, serCreate_valid, Bool.not_true, Bool.and_false, Bool.false_eq_true, if_false] at hr
  cases hr
  simp only [callToolTask, strictCall, serCreate_valid, Bool.not_true, Bool.and_false, Bool.false_eq_true, if_false] at ht
  have hid : t.taskId = lit "task-" ++ natDec (srvAt name ops p).tasks.nextId := by
    have e := Except.ok.inj ht
    have e2 : t = ((srvAt name ops p).tasks.create .toolCall ttl' env.now).1 := by
      rw [show t = (parseCreate (serCreate ((srvAt name ops p).tasks.create .toolCall ttl' env.now).1 none : JVal D)).1 by rw [e]]
      exact serTask_parse _
    rw [e2]; rfl
  refine ⟨h, env, _, hp, (calls_iff _ _ _).2 ⟨rfl, c2, rfl, rfl⟩, ?_, c3, ?_, ?_⟩
  · cases ttl <;> exact ⟨_, _, rfl, rfl⟩
  · rw [hid]; exact hf
  · rw [hsucc, hstep, he, hid]
    show (AMap.get (AMap.put _ _ _) _).isSome = true
    rw [AMap.get_put_self]; rfl

/-- What the answer to `tasks/result` makes of the outcome of the task. -/
theorem result_value {env : Env D H} {s : Srv D H} {id id' : RpcId} {tid : Bytes} {r : Response D} {strict : Bool} {kind : Option Tasks.Kind} {v : JVal D}
    (he : ∀ r p, AMap.get s.tasks.records tid = some r → r.payload = some p → r.isError = true → isErrorObject (attachError p tid) = true)
    (hr : (dispatch env s ⟨id, lit "tasks/result", some (taskParams tid)⟩).1 = .answer r)
    (hv : taskResult strict kind (.resp ⟨id', r.result, r.error⟩) = some v) :
    isErrorObject v = true ∨ ∃ p, s.tasks.wait tid = .got false p ∧ v = attachResult p tid := by
  rw [dispatch_result _ _ _ rfl] at hr
  have hfail : ∀ c msg, failed (D := D) id c msg = .answer r → isErrorObject v = true := by
    intro c msg h
    cases h
    cases hv
    exact error_mk c msg
  unfold tasksResult at hr
  rw [show taskIdParam (some (taskParams tid) : Option (JVal D)) = some tid from rfl] at hr
  dsimp only at hr
  cases hw : s.tasks.wait tid with
  | unknown => rw [hw] at hr; exact .inl (hfail _ _ hr)
  | blocked => rw [hw] at hr; cases hr
  | got e p =>
    rw [hw] at hr
    cases e with
    | true =>
      dsimp only at hr
      cases hr
      cases hv
      refine .inl ?_
      unfold Store.wait at hw
      split at hw
      · cases hw
      · rename_i rec hrec
        split at hw
        · cases hw
        · rename_i p' hp'
          injection hw with e1 e2
          subst e2
          exact he rec p' hrec hp' e1
    | false =>
      dsimp only at hr
      have okcase : ∀ {i : RpcId}, okay i (attachResult p tid) = .answer r → v = attachResult p tid := by
        intro i h
        cases h
        simp only [taskResult] at hv
        split at hv
        · split at hv
          · cases hv
          · cases hv; rfl
        · cases hv; rfl
      split at hr
      · unfold checked at hr
        split at hr
        · exact .inl (hfail _ _ hr)
        · exact .inr ⟨p, rfl, okcase hr⟩
      · exact .inr ⟨p, rfl, okcase hr⟩

/-! ### The whole way of a task -/

theorem error_attach {name : Bytes} {ops : List (SrvOp D H)} (hn : ops.length + 1 < 2 ^ 64) {tid : Bytes} {r : Record D} {p : JVal D}
    (hr : AMap.get ((Srv.init name).run ops).tasks.records tid = some r) (hp : r.payload = some p) (he : r.isError = true) :
    isErrorObject (attachError p tid) = true := by
  have key : ∀ text, isErrorObject (attachError (errorText text : JVal D) tid) = true := fun text => rfl
  obtain ⟨k, h | ⟨_, _, _, _, -, -, h⟩⟩ := (origin_reach name ops hn).failures tid r p hr hp he
  · obtain ⟨_, -, -, rfl⟩ := h; exact key _
  · rcases h with ⟨_, -, rfl⟩ | ⟨_, -, -, -, rfl⟩ <;> exact key _

/-- A request for a task that gave a task and a later request for the outcome of this task, in any world that contains a server. -/
theorem task_way {step : W → O → W} {f : W → O → List (SrvOp D H)} {srv : W → Srv D H} (hsrv : ∀ w op, srv (step w op) = (srv w).run (f w op))
    (hlen : ∀ w op, (f w op).length ≤ 1) {name : Bytes} {setup : List (SrvOp D H)} {w : W} (hw : srv w = (Srv.init name).run setup) {ops : List O}
    (few : setup.length + ops.length + 1 < 2 ^ 64) {p p' : Nat} {op op' : O} {env env' : Env D H} {id id' : RpcId} {tool : Bytes} {args : JVal D} {ttl : Option Int}
    {r r' : Response D} {strict strict' : Bool} {kind : Option Tasks.Kind} {t : Task} {m : Option (JVal D)} {v : JVal D}
    (hp : ops[p]? = some op) (hf : f ((ops.take p).foldl step w) op = [.request env ⟨id, lit "tools/call", some (taskCallParams tool args ttl)⟩])
    (hr : (dispatch env (srv ((ops.take p).foldl step w)) ⟨id, lit "tools/call", some (taskCallParams tool args ttl)⟩).1 = .answer r)
    (ht : callToolTask strict [] (.resp ⟨id, r.result, r.error⟩) = .ok (t, m))
    (hp' : ops[p']? = some op') (hf' : f ((ops.take p').foldl step w) op' = [.request env' ⟨id', lit "tasks/result", some (taskParams t.taskId)⟩])
    (hr' : (dispatch env' (srv ((ops.take p').foldl step w)) ⟨id', lit "tasks/result", some (taskParams t.taskId)⟩).1 = .answer r')
    (hv : taskResult strict' kind (.resp ⟨id', r'.result, r'.error⟩) = some v) :
    isErrorObject v = true ∨ ∃ k o e n h res, p < k ∧ k < p' ∧ ops[k]? = some o ∧ f ((ops.take k).foldl step w) o = [.worker e n] ∧
      AMap.get (srv ((ops.take p).foldl step w)).reg.toolHandlers tool = some h ∧ e.tool h args = .ret res ∧ Delivered t.taskId res v := by
  -- the executions of the server up to the two requests
  have hall : ∀ l : List O, srv (l.foldl step w) = (Srv.init name).run (setup ++ srvTrace step f w l) := by
    intro l
    rw [srvTrace_srv hsrv, hw, srv_run_append]
  have hlenT : ∀ l : List O, (setup ++ srvTrace step f w l).length ≤ setup.length + l.length := by
    intro l
    rw [List.length_append]
    have := srvTrace_length (step := step) hlen l w
    omega
  have hplace : ∀ {q : Nat} {o : O} {sop : SrvOp D H}, ops[q]? = some o → f ((ops.take q).foldl step w) o = [sop] →
      (setup ++ srvTrace step f w ops)[(setup ++ srvTrace step f w (ops.take q)).length]? = some sop ∧
        srvAt name (setup ++ srvTrace step f w ops) (setup ++ srvTrace step f w (ops.take q)).length = srv ((ops.take q).foldl step w) := by
    intro q o sop h1 h2
    obtain ⟨h3, h4⟩ := srvTrace_place h1 h2
    refine ⟨?_, ?_⟩
    · rw [List.length_append, List.getElem?_append_right (by omega), Nat.add_sub_cancel_left]; exact h3
    · rw [hall]
      unfold srvAt
      rw [List.length_append, List.take_append, List.take_of_length_le (by omega), Nat.add_sub_cancel_left, h4]
  have hfew : (setup ++ srvTrace step f w ops).length + 1 < 2 ^ 64 := by
    have := hlenT ops
    omega
  obtain ⟨g1, g2⟩ := hplace hp hf
  obtain ⟨hh, hstart⟩ := created_start hfew g1 (by rw [g2]; exact hr) ht
  have hfew' : (setup ++ srvTrace step f w (ops.take p')).length + 1 < 2 ^ 64 := by
    have h1 := hlenT (ops.take p')
    rw [List.length_take] at h1
    omega
  rcases result_value (fun rc pl h1 h2 h3 => by rw [hall] at h1; exact error_attach hfew' h1 h2 h3) hr' hv with h | ⟨pl, h1, h2⟩
  · exact .inl h
  right
  rw [hall] at h1
  obtain ⟨q, k, tool', args', h', res, hqk, hst', hend, rfl⟩ := C131_origin name _ hfew' t.taskId pl h1
  -- the part of the execution after the second request does not matter
  have hdrop : setup ++ srvTrace step f w ops = (setup ++ srvTrace step f w (ops.take p')) ++ srvTrace step f ((ops.take p').foldl step w) (ops.drop p') := by
    rw [List.append_assoc, ← srvTrace_append, List.take_append_drop]
  have hlater : ∀ j, j ≤ (setup ++ srvTrace step f w (ops.take p')).length →
      srvAt name (setup ++ srvTrace step f w ops) j = srvAt name (setup ++ srvTrace step f w (ops.take p')) j := by
    intro j hj
    unfold srvAt
    rw [hdrop, List.take_append_of_le_length hj]
  have hget : ∀ {j : Nat} {a : SrvOp D H}, (setup ++ srvTrace step f w (ops.take p'))[j]? = some a → (setup ++ srvTrace step f w ops)[j]? = some a := by
    intro j a ha
    rw [hdrop, List.getElem?_append_left (List.getElem?_eq_some_iff.1 ha).1]
    exact ha
  have hst2 : StartedAt name (setup ++ srvTrace step f w ops) q t.taskId tool' args' h' := by
    obtain ⟨e, rq, k1, k2⟩ := hst'
    have hl := (List.getElem?_eq_some_iff.1 k1).1
    refine ⟨e, rq, hget k1, ?_⟩
    rw [hlater q (by omega), hlater (q + 1) (by omega)]
    exact k2
  obtain ⟨hq, rfl, rfl, rfl⟩ := C131_once name _ hfew _ _ _ _ _ _ _ _ _ hst2 hstart
  obtain ⟨e, n, k1, -, k3⟩ := hend
  have hklt := (List.getElem?_eq_some_iff.1 k1).1
  have hks : setup.length ≤ k := by
    rw [hq, List.length_append] at hqk
    omega
  rw [List.getElem?_append_right hks] at k1
  obtain ⟨kk, o, j1, j2, j3⟩ := srvTrace_from hlen _ k1
  have hkk := (List.getElem?_eq_some_iff.1 j1).1
  rw [List.length_take] at hkk
  have htt : (ops.take p').take kk = ops.take kk := by rw [List.take_take, Nat.min_eq_left (by omega)]
  rw [htt] at j2 j3
  have j1' : ops[kk]? = some o := by
    rw [List.getElem?_take] at j1
    split at j1
    · exact j1
    · cases j1
  refine ⟨kk, o, e, n, h', res, ?_, by omega, j1', j2, ?_, k3, h2 ▸ delivered_attach _ _⟩
  · rcases Nat.lt_or_ge p kk with hlt | hge
    · exact hlt
    · have := srvTrace_mono step f w ops hge
      rw [hq, List.length_append] at hqk
      omega
  · obtain ⟨_, _, -, -, -, k5, -⟩ := hstart
    rw [g2] at k5
    exact k5

/-! ### What the calls make of the answers -/

theorem question_task (tool : Bytes) (args : JVal D) (ttl : Option Int) :
    question (.callToolTask tool args ttl) = ⟨lit "tools/call", some (taskCallParams tool args ttl)⟩ := by
  cases ttl <;> rfl

theorem says_created {strict : Bool} {kind : Option Tasks.Kind} {tool : Bytes} {args : JVal D} {ttl : Option Int} {o : Client.Outcome D} {t : Task} {m : Option (JVal D)}
    (h : some (Val.created t m) = says strict kind (.callToolTask tool args ttl) o) : callToolTask strict [] o = .ok (t, m) := by
  simp only [says] at h
  cases hc : callToolTask strict [] o with
  | error e => rw [hc] at h; cases h
  | ok q => rw [hc] at h; cases h; rfl

theorem says_result {strict : Bool} {kind : Option Tasks.Kind} {tid : Bytes} {o : Client.Outcome D} {v : JVal D}
    (h : some (Val.json v) = says strict kind (.taskResult tid) o) : taskResult strict kind o = some v := by
  simp only [says] at h
  cases hc : taskResult strict kind o with
  | none => rw [hc] at h; cases h
  | some q => rw [hc] at h; cases h; rfl

theorem error_created {strict : Bool} {id : RpcId} {e : JVal D} {t : Task} {m : Option (JVal D)} (h : callToolTask strict [] (.resp ⟨id, none, some e⟩) = .ok (t, m)) : False := by
  cases h

theorem error_result {strict : Bool} {kind : Option Tasks.Kind} {id : RpcId} {text : Bytes} {v : JVal D}
    (h : taskResult strict kind (.resp ⟨id, none, some (.obj [(lit "code", .int (-32603)), (lit "message", .str text)])⟩) = some v) : isErrorObject v = true := by
  cases h
  rfl

end Verif.Whole
